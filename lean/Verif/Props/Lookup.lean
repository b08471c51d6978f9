import Verif.Model.Lookup
import Verif.Props.Join
/-!
# C28: lookup
-/

namespace Tablite
set_option linter.unusedSectionVars false

section
variable {ν α : Type} [DecidableEq ν]

/-- the value of an operand in row `i` of table `t` -/
def opVal (nul : α) (t : Tbl ν α) (i : Nat) : Operand ν α → α
  | .name x v => if x ∈ t.map (·.1) then cell nul t x i else v
  | .value v => v

/-- the criteria hold for row `i` of `t` and row `j` of `o`: all of them, or at least one -/
def rowMatch (nul : α) (all : Bool) (t o : Tbl ν α) (crits : List (Criterion ν α)) (i j : Nat) : Prop :=
  if all then ∀ c ∈ crits, c.op (opVal nul t i c.left) (opVal nul o j c.right) = true
  else ∃ c ∈ crits, c.op (opVal nul t i c.left) (opVal nul o j c.right) = true

/-- `r` is the first row below `m` with `P`, or none if there is none -/
def IsFirst (P : Nat → Prop) (m : Nat) (r : Option Nat) : Prop :=
  match r with
  | some j => j < m ∧ P j ∧ ∀ k, k < j → ¬ P k
  | none => ∀ k, k < m → ¬ P k

theorem mem_pySet (l : List ν) (x : ν) : x ∈ pySet l ↔ x ∈ l := by
  unfold pySet
  have : ∀ (l acc : List ν), x ∈ l.foldl (fun s x => if x ∈ s then s else s ++ [x]) acc ↔ x ∈ acc ∨ x ∈ l := by
    intro l
    induction l with
    | nil => simp
    | cons a t ih =>
      intro acc
      rw [List.foldl_cons, ih]
      by_cases h : a ∈ acc
      · rw [if_pos h]
        constructor
        · rintro (h | h) <;> simp [h]
        · rintro (h' | h')
          · exact Or.inl h'
          · rcases List.mem_cons.1 h' with rfl | h'
            · exact Or.inl h
            · exact Or.inr h'
      · rw [if_neg h]; simp [or_assoc]
  rw [this]; simp

theorem mem_operandColumns (ord : List ν → List ν) (hord : ∀ l, (ord l).Perm l) (t : Tbl ν α) (l : List (Operand ν α)) (x : ν) :
    x ∈ operandColumns ord t l ↔ x ∈ t.map (·.1) ∧ ∃ v, Operand.name x v ∈ l := by
  unfold operandColumns
  rw [List.mem_filter, (hord _).mem_iff, mem_pySet, List.mem_filterMap, and_comm]
  simp only [decide_eq_true_eq]
  apply and_congr_right
  intro _
  constructor
  · rintro ⟨o, ho, e⟩
    cases o with
    | name y v => simp only [Option.some.injEq] at e; subst e; exact ⟨v, ho⟩
    | value v => cases e
  · rintro ⟨v, h⟩
    exact ⟨_, h, rfl⟩

theorem dGet_zip_map (names : List ν) (f : ν → α) (x : ν) : dGet x (names.zip (names.map f)) = if x ∈ names then some (f x) else none := by
  have : names.zip (names.map f) = names.map fun y => (y, f y) := by
    induction names with
    | nil => rfl
    | cons a u ih => simp only [List.map_cons, List.zip_cons_cons, ih]
  rw [this, dGet_map]

theorem operandGet_eq (ord : List ν → List ν) (hord : ∀ l, (ord l).Perm l) (nul : α) (t : Tbl ν α) (l : List (Operand ν α)) (i : Nat) (o : Operand ν α)
    (h : o ∈ l) :
    operandGet (operandColumns ord t l) ((operandColumns ord t l).map fun x => cell nul t x i) o = opVal nul t i o := by
  cases o with
  | value v => rfl
  | name x v =>
    unfold operandGet opVal
    dsimp only
    rw [dGet_zip_map]
    have : x ∈ operandColumns ord t l ↔ x ∈ t.map (·.1) := by
      rw [mem_operandColumns ord hord]
      exact ⟨fun h => h.1, fun hx => ⟨hx, v, h⟩⟩
    by_cases hx : x ∈ t.map (·.1)
    · rw [if_pos (this.2 hx), if_pos hx]; rfl
    · rw [if_neg (fun h => hx (this.1 h)), if_neg hx]; rfl

theorem critEval_iff (ord : List ν → List ν) (hord : ∀ l, (ord l).Perm l) (nul : α) (all : Bool) (t o : Tbl ν α) (crits : List (Criterion ν α)) (i j : Nat) :
    critEval all crits (operandColumns ord t (crits.map (·.left))) ((operandColumns ord t (crits.map (·.left))).map fun x => cell nul t x i)
      (operandColumns ord o (crits.map (·.right))) ((operandColumns ord o (crits.map (·.right))).map fun x => cell nul o x j) = true ↔
    rowMatch nul all t o crits i j := by
  unfold critEval rowMatch
  dsimp only
  have : (crits.map fun c => c.op (operandGet (operandColumns ord t (crits.map (·.left))) ((operandColumns ord t (crits.map (·.left))).map fun x => cell nul t x i) c.left)
      (operandGet (operandColumns ord o (crits.map (·.right))) ((operandColumns ord o (crits.map (·.right))).map fun x => cell nul o x j) c.right)) =
      crits.map fun c => c.op (opVal nul t i c.left) (opVal nul o j c.right) := by
    apply List.map_congr_left
    intro c hc
    rw [operandGet_eq ord hord nul t _ i _ (List.mem_map.2 ⟨c, hc, rfl⟩), operandGet_eq ord hord nul o _ j _ (List.mem_map.2 ⟨c, hc, rfl⟩)]
  rw [this]
  cases all
  · simp
  · simp only [Bool.true_and, Bool.not_true, Bool.false_and, Bool.or_false, if_true, Bool.not_eq_true', ← Bool.not_eq_true, List.contains_iff_mem]
    simp only [List.mem_map, not_exists, not_and, Bool.not_eq_false]

theorem firstMatch_first (p : List α → Bool) (rs : List (List α)) (k : Nat) (P : Nat → Prop) (hP : ∀ j r, rs[j]? = some r → (p r = true ↔ P (k + j))) :
    match firstMatch p k rs with
    | some j => k ≤ j ∧ j < k + rs.length ∧ P j ∧ ∀ l, k ≤ l → l < j → ¬ P l
    | none => ∀ l, k ≤ l → l < k + rs.length → ¬ P l := by
  induction rs generalizing k with
  | nil => simp only [firstMatch, List.length_nil]; intro l h1 h2; omega
  | cons r rs ih =>
    have h0 := hP 0 r (by simp)
    unfold firstMatch
    by_cases h : p r = true
    · rw [if_pos h]
      simp only [List.length_cons]
      exact ⟨by omega, by omega, by simpa using h0.1 h, fun l h1 h2 => by omega⟩
    · rw [if_neg h]
      have := ih (k + 1) (fun j r hj => by rw [hP (j + 1) r (by simpa using hj)]; congr! 1; omega)
      have hk : ¬ P k := fun hp => h (h0.2 (by simpa using hp))
      generalize firstMatch p (k + 1) rs = res at this
      cases res with
      | none =>
        simp only [List.length_cons] at this ⊢
        intro l h1 h2
        by_cases e : l = k
        · subst e; exact hk
        · exact this l (by omega) (by omega)
      | some j =>
        simp only [List.length_cons] at this ⊢
        obtain ⟨a, b, c, d⟩ := this
        refine ⟨by omega, by omega, c, fun l h1 h2 => ?_⟩
        by_cases e : l = k
        · subst e; exact hk
        · exact d l (by omega) h2

theorem lookupLoop_eq {η : Type} [DecidableEq η] (hash : List α → η) (search : List α → Option Nat) (rs : List (List α)) (cache : List (η × Int))
    (univ : List (List α)) (hsub : ∀ r ∈ rs, r ∈ univ) (hinj : ∀ r ∈ univ, ∀ s ∈ univ, hash r = hash s → r = s)
    (hc : ∀ h i, dGet h cache = some i → ∃ r ∈ univ, hash r = h ∧ i = enc (search r)) :
    lookupLoop hash search cache rs = rs.map fun r => enc (search r) := by
  induction rs generalizing cache with
  | nil => rfl
  | cons r rs ih =>
    unfold lookupLoop
    cases e : dGet (hash r) cache with
    | some i =>
      obtain ⟨s, hs, h1, h2⟩ := hc _ _ e
      have := hinj s hs r (hsub r (by simp)) h1
      subst this
      rw [List.map_cons, ← h2]
      exact congrArg _ (ih cache (fun r hr => hsub r (by simp [hr])) hc)
    | none =>
      dsimp only
      rw [List.map_cons]
      congr 1
      apply ih _ (fun r hr => hsub r (by simp [hr]))
      intro h i hi
      by_cases hh : ∃ i', dGet h cache = some i'
      · obtain ⟨i', hi'⟩ := hh
        have : dGet h (cache ++ [(hash r, enc (search r))]) = some i' := by
          clear ih hc e hi
          induction cache with
          | nil => cases hi'
          | cons c u ihc =>
            simp only [List.cons_append, dGet] at hi' ⊢
            split
            · next hh => rw [if_pos hh] at hi'; exact hi'
            · next hh => rw [if_neg hh] at hi'; exact ihc hi'
        rw [this] at hi
        injection hi with hi
        subst hi
        exact hc h i' hi'
      · have : dGet h (cache ++ [(hash r, enc (search r))]) = if hash r = h then some (enc (search r)) else none := by
          clear ih hc e hi
          induction cache with
          | nil => simp [dGet, eq_comm]
          | cons c u ihc =>
            simp only [List.cons_append, dGet] at hh ⊢
            split
            · next h2 => exact absurd ⟨c.2, by rw [if_pos h2]⟩ hh
            · next h2 => rw [if_neg h2] at hh; exact ihc hh
        rw [this] at hi
        split at hi
        · next h2 => injection hi with hi; exact ⟨r, hsub r (by simp), h2, hi.symm⟩
        · cases hi

theorem subTable_rows (nul : α) (t : Tbl ν α) (n : Nat) (ht : Rect t n) (names : List ν) (hne : names ≠ []) (h : ∀ x ∈ names, x ∈ t.map (·.1)) :
    tblRows nul (subTable t names) = .ok ((List.range n).map fun i => names.map fun x => cell nul t x i) := by
  have hr : Rect (subTable t names) n := by
    intro c hc
    obtain ⟨x, hx, rfl⟩ := List.mem_map.1 hc
    obtain ⟨p, hp⟩ := Option.isSome_iff_exists.1 ((dGet_isSome x t).2 (h x hx))
    simp only [hp, Option.getD_some]
    obtain ⟨q, hq, e1, e2⟩ : ∃ q ∈ t, q.1 = x ∧ q.2 = p := by
      clear h ht hc hx
      induction t with
      | nil => cases hp
      | cons d u ih =>
        unfold dGet at hp
        split at hp
        · next h => injection hp with hp; exact ⟨d, by simp, h, hp⟩
        · obtain ⟨q, hq, e⟩ := ih hp; exact ⟨q, by simp [hq], e⟩
    rw [← e2]; exact ht q hq
  rw [C15_rows, tblLen_rect _ n hr (by unfold subTable; simpa using hne)]
  congr 1
  apply List.map_congr_left
  intro i _
  unfold subTable
  rw [List.map_map]
  apply List.map_congr_left
  intro x _
  simp only [Function.comp, cell]
  cases dGet x t <;> rfl

theorem addColumns_view (mk : ν → Nat → ν) (hmk : ∀ d a b, mk d a = mk d b → a = b) (t second : Tbl ν α) :
    tview (addColumns mk t second) = tview t ++ ((second.map (·.1)).zip (rightNames mk (t.map (·.1)) (second.map (·.1)))).zipWith
      (fun x v => (x.2, v)) (second.map fun c => colIter c.2) := by
  induction second generalizing t with
  | nil => simp [addColumns, rightNames]
  | cons c u ih =>
    have hnew := (C47_unique_name mk c.1 (t.map (·.1)) (hmk c.1)).1
    have e : tblSet t (uniqueName mk c.1 (t.map (·.1))) c.2 = t ++ [(uniqueName mk c.1 (t.map (·.1)), c.2)] := by
      generalize uniqueName mk c.1 (t.map (·.1)) = y at hnew
      unfold tblSet
      clear ih
      induction t with
      | nil => rfl
      | cons d v ih2 =>
        simp only [List.map_cons, List.mem_cons, not_or] at hnew
        simp only [dUpd, List.cons_append]
        rw [if_neg (fun h => hnew.1 h.symm), ih2 hnew.2]
    unfold addColumns at ih ⊢
    rw [List.foldl_cons, e, ih]
    simp [rightNames, tview]

/-- C28 (partial): the result has the columns of `t` unchanged, followed by the columns of `o` under fresh names, in which row `i` shows the
first row of `o` that satisfies the criteria together with row `i` of `t`, or None if there is none.  Hypotheses: the rows of the left
criteria columns have distinct hashes unless they are equal (`C28_fails`), and, if some row has no match, the table fits one page and `o` has
no empty pages (`reindex`, `C62_raises`). -/
theorem C28_lookup_partial {η : Type} [DecidableEq η] (hash : List α → η) (ord : List ν → List ν) (hord : ∀ l, (ord l).Perm l) (ps : Nat) (hps : 0 < ps)
    (mk : ν → Nat → ν) (hmk : ∀ d a b, mk d a = mk d b → a = b) (nul : α) (all : Bool) (t o : Tbl ν α) (n m : Nat) (ht : Rect t n) (ho : Rect o m)
    (hwf : TblWF o) (crits : List (Criterion ν α))
    (hl : ∃ x v, Operand.name x v ∈ crits.map (·.left) ∧ x ∈ t.map (·.1)) (hr : ∃ x v, Operand.name x v ∈ crits.map (·.right) ∧ x ∈ o.map (·.1))
    (hinj : ∀ names : List ν, ∀ i i', i < n → i' < n → hash (names.map fun x => cell nul t x i) = hash (names.map fun x => cell nul t x i') →
      (names.map fun x => cell nul t x i) = names.map fun x => cell nul t x i')
    (hmiss : (∃ i, i < n ∧ ∀ j, j < m → ¬ rowMatch nul all t o crits i j) → n ≤ ps ∧ ∀ c ∈ o, ∀ p ∈ c.2, p ≠ []) :
    ∃ rows : List (Option Nat), rows.length = n ∧ (∀ (i : Nat) r, rows[i]? = some r → IsFirst (rowMatch nul all t o crits i) m r) ∧
      ∃ t', tblLookup hash ord ps mk nul all t o crits = .ok t' ∧
        tview t' = tview t ++ ((o.map (·.1)).zip (rightNames mk (t.map (·.1)) (o.map (·.1)))).map
          fun x => (x.2, rows.map fun r => optCell nul o x.1 r) := by
  have hlne : operandColumns ord t (crits.map (·.left)) ≠ [] := by
    obtain ⟨x, v, h1, h2⟩ := hl
    exact List.ne_nil_of_mem ((mem_operandColumns ord hord t _ x).2 ⟨h2, v, h1⟩)
  have hrne : operandColumns ord o (crits.map (·.right)) ≠ [] := by
    obtain ⟨x, v, h1, h2⟩ := hr
    exact List.ne_nil_of_mem ((mem_operandColumns ord hord o _ x).2 ⟨h2, v, h1⟩)
  have hlr := subTable_rows nul t n ht _ hlne (fun x hx => ((mem_operandColumns ord hord t _ x).1 hx).1)
  have hrr := subTable_rows nul o m ho _ hrne (fun x hx => ((mem_operandColumns ord hord o _ x).1 hx).1)
  have hiff := critEval_iff ord hord nul all t o crits
  unfold tblLookup
  dsimp only
  rw [if_neg (by simp [hlne, hrne]), hlr, hrr]
  simp only [bind, Except.bind]
  generalize operandColumns ord t (crits.map (·.left)) = ln at *
  generalize operandColumns ord o (crits.map (·.right)) = rn at *
  generalize hrrows : ((List.range m).map fun i => rn.map fun x => cell nul o x i) = rrows at *
  have hloop := lookupLoop_eq hash (fun r => firstMatch (fun q => critEval all crits ln r rn q) 0 rrows)
    ((List.range n).map fun i => ln.map fun x => cell nul t x i) [] ((List.range n).map fun i => ln.map fun x => cell nul t x i) (fun r hr => hr) (by
      intro r hr s hs e
      obtain ⟨i, hi, rfl⟩ := List.mem_map.1 hr
      obtain ⟨i', hi', rfl⟩ := List.mem_map.1 hs
      exact hinj ln i i' (List.mem_range.1 hi) (List.mem_range.1 hi') e) (by intro h i e; cases e)
  have hfirst : ∀ i, IsFirst (rowMatch nul all t o crits i) m (firstMatch (fun q => critEval all crits ln (ln.map fun x => cell nul t x i) rn q) 0 rrows) := by
    intro i
    have hlen : rrows.length = m := by rw [← hrrows]; simp
    have := firstMatch_first (fun q => critEval all crits ln (ln.map fun x => cell nul t x i) rn q) rrows 0 (rowMatch nul all t o crits i) (by
      intro j r hj
      rw [Nat.zero_add, ← hiff i j]
      rw [← hrrows, List.getElem?_map] at hj
      cases e : (List.range m)[j]? with
      | none => rw [e] at hj; cases hj
      | some j' =>
        rw [List.getElem?_range] at e <;> first | (injection e with e) | skip
        · subst e
          rw [List.getElem?_range (by
            by_contra hge
            rw [List.getElem?_eq_none (by simp; omega)] at hj
            cases hj)] at hj
          injection hj with hj
          rw [← hj]
        · by_contra hge
          rw [List.getElem?_eq_none (by simp; omega)] at hj
          cases hj)
    generalize firstMatch (fun q => critEval all crits ln (ln.map fun x => cell nul t x i) rn q) 0 rrows = res at this
    cases res with
    | none =>
      simp only [Nat.zero_add, Nat.zero_le, true_implies, hlen] at this
      exact this
    | some j =>
      simp only [Nat.zero_add, Nat.zero_le, true_implies, true_and, hlen] at this
      exact this
  generalize hfm : (fun i : Nat => firstMatch (fun q => critEval all crits ln (ln.map fun x => cell nul t x i) rn q) 0 rrows) = fm at *
  have hfm' : ∀ i, firstMatch (fun q => critEval all crits ln (ln.map fun x => cell nul t x i) rn q) 0 rrows = fm i := fun i => congrFun hfm i
  simp only [hfm'] at hfirst
  rw [List.map_map] at hloop
  have hloop2 : lookupLoop hash (fun r => firstMatch (fun q => critEval all crits ln r rn q) 0 rrows) []
      ((List.range n).map fun i => ln.map fun x => cell nul t x i) = (List.range n).map fun i => enc (fm i) := by
    rw [hloop]
    apply List.map_congr_left
    intro i _
    simp only [Function.comp, hfm']
  rw [hloop2]
  have hval : ∀ i, enc (fm i) = -1 ∧ fm i = none ∨ ∃ j, fm i = some j ∧ enc (fm i) = (j : Int) ∧ j < m := by
    intro i
    have := hfirst i
    cases e : fm i with
    | none => exact Or.inl ⟨rfl, rfl⟩
    | some j => rw [e] at this; exact Or.inr ⟨j, rfl, rfl, this.1⟩
  obtain ⟨second, s1, s2⟩ := C62_reindex_partial ps hps nul o ((List.range n).map fun i => enc (fm i))
    (by
      intro c hc i hi
      obtain ⟨k, _, rfl⟩ := List.mem_map.1 hi
      have := ho c hc
      rcases hval k with ⟨h, _⟩ | ⟨j, _, h2, h3⟩
      · exact Or.inl h
      · exact Or.inr (by omega))
    (by
      intro hin
      obtain ⟨k, hk, e⟩ := List.mem_map.1 hin
      have := hmiss ⟨k, List.mem_range.1 hk, by
        have := hfirst k
        rcases hval k with ⟨_, h⟩ | ⟨j, _, h2, _⟩
        · rw [h] at this; exact this
        · omega⟩
      simpa using this)
  rw [s1]
  refine ⟨(List.range n).map fm, by simp, ?_, addColumns mk t second, rfl, ?_⟩
  · intro i r hi
    rw [List.getElem?_map] at hi
    by_cases h : i < n
    · rw [List.getElem?_range h] at hi
      injection hi with hi
      rw [← hi]; exact hfirst i
    · rw [List.getElem?_eq_none (by simp; omega)] at hi
      cases hi
  · rw [addColumns_view mk hmk]
    have hn : second.map (·.1) = o.map (·.1) := by
      have := congrArg (List.map (·.1)) s2
      simpa [tview, Function.comp_def] using this
    have hv : (second.map fun c => colIter c.2) = (o.map (·.1)).map fun x => (List.range n).map fun i => optCell nul o x (fm i) := by
      have := congrArg (List.map (·.2)) s2
      simp only [tview, List.map_map, Function.comp_def] at this
      rw [this, List.map_map]
      apply List.map_congr_left
      intro c hc
      simp only [Function.comp]
      apply List.map_congr_left
      intro i hi
      have hg : dGet c.1 o = some c.2 := dGet_of_mem o hwf c hc
      unfold optCell pick
      rcases hval i with ⟨h1, h2⟩ | ⟨j, h1, h2, h3⟩
      · rw [h1, h2]; rfl
      · rw [h2, h1, if_neg (by omega)]
        simp [cell, hg]
    rw [hn, hv]
    congr 1
    rw [List.zipWith_map_right]
    have hlen : (rightNames mk (t.map (·.1)) (o.map (·.1))).length = (o.map (·.1)).length := rightNames_length _ _ _
    generalize rightNames mk (t.map (·.1)) (o.map (·.1)) = rn' at hlen
    generalize o.map (·.1) = on at hlen
    clear s2 hn hv hl hr hrr hlr
    induction on generalizing rn' with
    | nil => simp
    | cons a u ih =>
      cases rn' with
      | nil => cases hlen
      | cons b w =>
        simp only [List.zip_cons_cons, List.zipWith_cons_cons, List.map_cons, List.map_map]
        rw [ih w (by simpa using hlen)]
        simp [Function.comp_def]

/-- C28 in full for integer tables under CPython's integer hash (the hash of a tuple is a function of the hashes of its elements) -/
def C28_statement : Prop :=
  ∀ (t o : Tbl String Int) (n m : Nat), Rect t n → Rect o m → TblWF o → ∀ (a b : String), a ∈ t.map (·.1) → b ∈ o.map (·.1) →
    ∃ rows : List (Option Nat), rows.length = n ∧ (∀ (i : Nat) r, rows[i]? = some r → IsFirst (fun j => cell 0 t a i = cell 0 o b j) m r) ∧
      ∃ t', tblLookup (fun k => k.map pyHashInt) id 10 suffixed 0 true t o [⟨fun x y => decide (x = y), .name a 0, .name b 0⟩] = .ok t' ∧
        ∀ i : Nat, (tview t').map (fun c => c.2.getD i 0) = (tview t).map (fun c => c.2.getD i 0) ++
          (o.map (·.1)).map fun x => ((rows.getD i none).map (cell 0 o x)).getD 0

/-- C28 fails: results are cached under the hash of the row and -1 and -2 have the same hash, so the row with -2 gets the match of -1. -/
theorem C28_fails : ¬ C28_statement := by
  intro h
  obtain ⟨rows, h1, h2, t', h3, h4⟩ := h [("a", [[-1, -2]])] [("b", [[-1, -2]])] 2 2 (by unfold Rect; decide) (by unfold Rect; decide)
    (by unfold TblWF; decide) "a" "b" (by decide) (by decide)
  have e : tblLookup (fun k => k.map pyHashInt) id 10 suffixed 0 true [("a", [[-1, -2]])] [("b", [[-1, -2]])]
      [⟨fun x y => decide (x = y), .name "a" 0, .name "b" 0⟩] = .ok [("a", [[-1, -2]]), ("b", [[-1, -1]])] := by decide
  rw [e] at h3
  injection h3 with h3
  have h5 := h4 1
  rw [← h3] at h5
  obtain ⟨r0, r1, rfl⟩ : ∃ r0 r1, rows = [r0, r1] := by
    match rows, h1 with
    | [a, b], _ => exact ⟨a, b, rfl⟩
  have h6 := h2 1 r1 rfl
  cases r1 with
  | none =>
    revert h5
    simp only [List.getD_cons_succ, List.getD_cons_zero]
    decide
  | some j =>
    obtain ⟨hj, hc, _⟩ := h6
    have : j = 0 ∨ j = 1 := by omega
    rcases this with rfl | rfl
    · revert hc; decide
    · revert h5
      simp only [List.getD_cons_succ, List.getD_cons_zero]
      decide

example : (tblLookup id id 10 (fun d i => d * 10 + i) 0 true [(1, [[5, 6], [7]])] [(2, [[7, 5, 5]]), (1, [[70], [50, 51]])]
    [⟨fun x y => decide (x = y), .name 1 0, .name 2 0⟩]).map tview =
    .ok [(1, [5, 6, 7]), (2, [5, 0, 7]), (11, [50, 0, 70])] := by decide

end

end Tablite
