import Verif.Model.TextSort
import Verif.Props.Sort
import Verif.Lemmas.OrdDict
/-!
# C83 sorting in mode "alphanumeric"
-/

namespace Tablite

set_option linter.unusedSectionVars false

section
variable {K : Type} [LinearOrder K]

theorem foldl_last {β : Type} (l : List β) (hne : l ≠ []) (b : β) : l.foldl (fun _ x => x) b ∈ l := by
  induction l generalizing b with
  | nil => exact absurd rfl hne
  | cons a l ih =>
    rw [List.foldl_cons]
    cases l with
    | nil => simp
    | cons c l => exact List.mem_cons_of_mem _ (ih (by simp) a)

theorem textDict_keys (str : SVal → String) (values : List SVal) : ((textDict str values).map (·.1)).Nodup := by
  unfold textDict
  rw [dGroup_eq, List.map_map]
  have : (firstOccs (values.map str)).map ((fun x : String × SVal => x.1) ∘ fun k => (k, (values.filter fun x => str x = k).foldl (fun b x => (fun v _ => v) x b) SVal.none)) =
      firstOccs (values.map str) := by
    conv => rhs; rw [← List.map_id (firstOccs (values.map str))]
    rfl
  rw [this]
  exact nodup_firstOccs _

theorem textDict_mem (str : SVal → String) (values : List SVal) (e : String × SVal) (h : e ∈ textDict str values) : e.2 ∈ values ∧ str e.2 = e.1 := by
  unfold textDict at h
  rw [dGroup_eq] at h
  obtain ⟨k, hk, rfl⟩ := List.mem_map.1 h
  rw [mem_firstOccs] at hk
  obtain ⟨v, hv, rfl⟩ := List.mem_map.1 hk
  have := foldl_last (values.filter fun x => str x = str v) (by
    intro e
    have hm : v ∈ values.filter fun x => str x = str v := List.mem_filter.2 ⟨hv, by simp⟩
    rw [e] at hm
    cases hm) SVal.none
  rw [List.mem_filter] at this
  exact ⟨this.1, by simpa using this.2⟩

theorem textDict_key (str : SVal → String) (values : List SVal) (v : SVal) (h : v ∈ values) : ∃ w, (str v, w) ∈ textDict str values := by
  unfold textDict
  rw [dGroup_eq]
  exact ⟨_, List.mem_map.2 ⟨str v, mem_firstOccs.2 (List.mem_map.2 ⟨v, h, rfl⟩), rfl⟩⟩

theorem textList_mem (key : String → K) (str : SVal → String) (rev : Bool) (values : List SVal) (v : SVal) :
    v ∈ textList key str rev values ↔ (str v, v) ∈ textDict str values := by
  unfold textList
  rw [List.mem_map]
  constructor
  · rintro ⟨e, he, rfl⟩
    rw [pySort_mem] at he
    rw [(textDict_mem str values e he).2]
    exact he
  · intro h
    exact ⟨_, (pySort_mem _ _ _ _).2 h, rfl⟩

/-- the order of the texts -/
def textLt (key : String → K) (str : SVal → String) (a b : SVal) : Bool := decide (key (str a) < key (str b))

theorem textList_sorted (key : String → K) (str : SVal → String) (rev : Bool) (values : List SVal) :
    (textList key str rev values).Pairwise fun a b => (if rev then textLt key str a b else textLt key str b a) = false := by
  unfold textList
  rw [List.pairwise_map]
  refine (pySort_pairwise (fun a b : String × SVal => decide (key a.1 ≤ key b.1)) (by
    intro a b; simp only [decide_eq_true_eq]; exact le_total _ _) (by
    intro a b c; simp only [decide_eq_true_eq]; exact le_trans) rev _).imp_of_mem ?_
  intro a b ha hb hab
  rw [pySort_mem] at ha hb
  have h1 := (textDict_mem str values a ha).2
  have h2 := (textDict_mem str values b hb).2
  unfold textLt
  rw [h1, h2]
  cases rev
  · simp only [Bool.false_eq_true, if_false, decide_eq_true_eq, decide_eq_false_iff_not] at *
    exact not_lt.2 hab
  · simp only [if_true, decide_eq_true_eq, decide_eq_false_iff_not] at *
    exact not_lt.2 hab

theorem textRank_ok (key : String → K) (str : SVal → String) (ord : List SVal → List SVal) (hord : ∀ l v, v ∈ ord l ↔ v ∈ l) (rev : Bool)
    (vals : List SVal) (hs : ∀ v ∈ vals, ∀ w ∈ vals, str v = str w → v = w) (he : ∀ v ∈ vals, ∀ w ∈ vals, v.pyEq w = true → v = w) :
    ∃ look r, textRank key str ord rev vals = .ok look ∧ (∀ v ∈ vals, look v = some (r v)) ∧
      RankOk (fun a b => decide (a = b)) (textLt key str) rev vals r := by
  have hin : ∀ v, v ∈ textList key str rev (ord vals) → v ∈ vals := by
    intro v hv
    rw [textList_mem] at hv
    exact (hord _ _).1 (textDict_mem _ _ _ hv).1
  obtain ⟨r, hr1, hr2⟩ := rankDict_ok SVal.pyEq pyEq_refl pyEq_symm pyEq_trans (textLt key str) rev (textList key str rev (ord vals)) vals
    (by
      intro v hv
      rw [textList_mem]
      obtain ⟨w, hw⟩ := textDict_key str (ord vals) v ((hord _ _).2 hv)
      have := textDict_mem _ _ _ hw
      have e := hs w ((hord _ _).1 this.1) v hv this.2
      rw [e] at hw
      exact hw)
    (textList_sorted key str rev (ord vals))
    (by
      intro v hv w hw v' hv' w' hw' e1 e2
      rw [he v' (hin v' hv') v hv e1, he w' (hin w' hw') w hw e2])
  refine ⟨_, r, rfl, hr1, ?_⟩
  intro v hv w hw
  obtain ⟨h1, h2⟩ := hr2 v hv w hw
  refine ⟨?_, h2⟩
  rw [h1]
  simp only [decide_eq_true_eq]
  constructor
  · exact he v hv w hw
  · rintro rfl; exact pyEq_refl v

variable {ν : Type} [DecidableEq ν]

/-- C83 (partial): sorting in mode "alphanumeric" rearranges the rows by the texts of the keys, in the given directions, rows equal on all keys
in their original order.  Excluded: key columns in which two different values have the same text (1 and "1"; `C83_collision_raises`) or are
equal for Python (1, 1.0 and True; `C83_mixed_fails`).  For every collation and every `str`. -/
theorem C83_text_partial (key : String → K) (str : SVal → String) (ord : List SVal → List SVal) (hord : ∀ l v, v ∈ ord l ↔ v ∈ l) (ps : Nat) (hps : 0 < ps)
    (t : Tbl ν SVal) (n : Nat) (hrect : Rect t n) (mapping : List (ν × Bool)) (hne : mapping ≠ []) (hk : ∀ k ∈ mapping, k.1 ∈ t.map (·.1))
    (hs : ∀ k ∈ mapping, ∀ i < n, ∀ j < n, str (cell .none t k.1 i) = str (cell .none t k.1 j) → cell .none t k.1 i = cell .none t k.1 j)
    (he : ∀ k ∈ mapping, ∀ i < n, ∀ j < n, (cell .none t k.1 i).pyEq (cell .none t k.1 j) = true → cell .none t k.1 i = cell .none t k.1 j) :
    ∃ idx t', tblSort (textRank key str ord) ps .none t mapping = .ok t' ∧ idx.Perm (List.range n) ∧ tview t' = rowsOf .none t idx ∧
      idx.Pairwise fun i j => InOrder (fun a b => decide (a = b)) (textLt key str) .none t i j mapping := by
  obtain ⟨idx, h1, h2, h3, -⟩ := sortIndex_ok (fun a b => decide (a = b)) (textLt key str) .none (textRank key str ord) t n hrect mapping hne hk (by
    intro k hk'
    obtain ⟨look, r, e1, e2, e3⟩ := textRank_ok key str ord hord k.2 ((List.range n).map fun i => cell .none t k.1 i)
      (by
        intro a ha b hb
        obtain ⟨i, hi, rfl⟩ := List.mem_map.1 ha
        obtain ⟨j, hj, rfl⟩ := List.mem_map.1 hb
        exact hs k hk' i (List.mem_range.1 hi) j (List.mem_range.1 hj))
      (by
        intro a ha b hb
        obtain ⟨i, hi, rfl⟩ := List.mem_map.1 ha
        obtain ⟨j, hj, rfl⟩ := List.mem_map.1 hb
        exact he k hk' i (List.mem_range.1 hi) j (List.mem_range.1 hj))
    exact ⟨look, r, e1, fun i hi => e2 _ (List.mem_map.2 ⟨i, List.mem_range.2 hi, rfl⟩), e3⟩)
  obtain ⟨t', h4, h5⟩ := tblSort_view ps hps .none (textRank key str ord) t n hrect mapping idx h1 (fun i hi => List.mem_range.1 (h2.subset hi))
  exact ⟨idx, t', h4, h2, h5, h3⟩

/-! ## values with equal texts -/

theorem mapM_rank_error (look : SVal → Option Nat) (l : List SVal) (v : SVal) (hv : v ∈ l) (h : look v = none) : l.mapM (rankOf look) = .error .key := by
  induction l with
  | nil => cases hv
  | cons a l ih =>
    rw [List.mapM_cons]
    cases ha : look a with
    | none => simp only [rankOf, ha]; rfl
    | some r =>
      rcases List.mem_cons.1 hv with rfl | hv
      · rw [h] at ha; cases ha
      · simp only [rankOf, ha, bind, Except.bind]
        have := ih hv
        rw [this]

theorem mapM_rank_cases (look : SVal → Option Nat) (l : List SVal) : (∃ r, l.mapM (rankOf look) = .ok r) ∨ l.mapM (rankOf look) = .error .key := by
  induction l with
  | nil => exact Or.inl ⟨[], rfl⟩
  | cons a l ih =>
    rw [List.mapM_cons]
    cases ha : look a with
    | none => exact Or.inr (by simp only [rankOf, ha]; rfl)
    | some r =>
      rcases ih with ⟨x, hx⟩ | hx
      · exact Or.inl ⟨r :: x, by simp only [rankOf, ha, hx]; rfl⟩
      · exact Or.inr (by simp only [rankOf, ha, hx]; rfl)

/-- two values of one key column that share their text, neither equal to another value of the column -/
def Collides (str : SVal → String) (vals : List SVal) (v w : SVal) : Prop :=
  v ∈ vals ∧ w ∈ vals ∧ v ≠ w ∧ str v = str w ∧ (∀ u ∈ vals, u.pyEq v = true → u = v) ∧ (∀ u ∈ vals, u.pyEq w = true → u = w)

theorem collides_none (key : String → K) (str : SVal → String) (ord : List SVal → List SVal) (hord : ∀ l v, v ∈ ord l ↔ v ∈ l) (rev : Bool)
    (vals : List SVal) (v w : SVal) (h : Collides str vals v w) :
    ∃ look, textRank key str ord rev vals = .ok look ∧ ∃ x ∈ vals, look x = none := by
  obtain ⟨hv, hw, hne, hstr, hv1, hw1⟩ := h
  refine ⟨_, rfl, ?_⟩
  have hin : ∀ v, v ∈ textList key str rev (ord vals) → v ∈ vals := by
    intro v hv
    rw [textList_mem] at hv
    exact (hord _ _).1 (textDict_mem _ _ _ hv).1
  have hnone : ∀ x, (∀ u ∈ vals, u.pyEq x = true → u = x) → x ∉ textList key str rev (ord vals) →
      eqGet SVal.pyEq x (rankDict SVal.pyEq (textList key str rev (ord vals))) = none := by
    intro x hx hnot
    cases e : eqGet SVal.pyEq x (rankDict SVal.pyEq (textList key str rev (ord vals))) with
    | none => rfl
    | some r =>
      obtain ⟨u, hu, hu'⟩ := rankDict_pos SVal.pyEq pyEq_refl pyEq_symm pyEq_trans x _ r e
      have hu := List.mem_of_getElem? hu
      have := hx u (hin u hu) hu'
      rw [this] at hu
      exact absurd hu hnot
  by_cases hvL : v ∈ textList key str rev (ord vals)
  · refine ⟨w, hw, hnone w hw1 ?_⟩
    intro hwL
    rw [textList_mem] at hvL hwL
    rw [hstr] at hvL
    have h1 := dGet_of_mem _ (textDict_keys str (ord vals)) _ hvL
    have h2 := dGet_of_mem _ (textDict_keys str (ord vals)) _ hwL
    simp only at h1 h2
    rw [h1] at h2
    exact hne (Option.some.inj h2)
  · exact ⟨v, hv, hnone v hv1 hvL⟩

theorem rankRows_error (rk : Bool → List SVal → Except Err (SVal → Option Nat)) (hrk : ∀ b l, ∃ look, rk b l = .ok look) (t : Tbl ν SVal)
    (mapping : List (ν × Bool)) (hk : ∀ k ∈ mapping, k.1 ∈ t.map (·.1)) (k : ν × Bool) (hkm : k ∈ mapping)
    (hbad : ∀ p, dGet k.1 t = some p → ∃ look, rk k.2 (colIter p) = .ok look ∧ ∃ x ∈ colIter p, look x = none) (acc : List (List Nat)) :
    rankRows rk t mapping acc = .error .key := by
  induction mapping generalizing acc with
  | nil => cases hkm
  | cons c mapping ih =>
    obtain ⟨key, rev⟩ := c
    rw [rankRows]
    have hsome := (dGet_isSome key t).2 (hk _ List.mem_cons_self)
    cases hp : dGet key t with
    | none => rw [hp] at hsome; cases hsome
    | some p =>
      simp only
      obtain ⟨look, hl⟩ := hrk rev (colIter p)
      rw [hl]
      simp only [bind, Except.bind]
      rcases mapM_rank_cases look (colIter p) with ⟨r, hr⟩ | hr
      · rw [hr]
        simp only
        rcases List.mem_cons.1 hkm with rfl | hkm
        · obtain ⟨look', hl', x, hx, hn⟩ := hbad p hp
          rw [hl] at hl'
          cases hl'
          rw [mapM_rank_error look _ x hx hn] at hr
          cases hr
        · exact ih (fun k hk' => hk k (List.mem_cons_of_mem _ hk')) hkm _
      · rw [hr]

/-- C83: if a key column has two different values with the same text, such as 1 and "1", sorting raises KeyError, whatever the order of the
set, the collation, the direction and the other keys. -/
theorem C83_collision_raises (key : String → K) (str : SVal → String) (ord : List SVal → List SVal) (hord : ∀ l v, v ∈ ord l ↔ v ∈ l) (ps : Nat)
    (t : Tbl ν SVal) (mapping : List (ν × Bool)) (hk : ∀ k ∈ mapping, k.1 ∈ t.map (·.1)) (k : ν × Bool) (hkm : k ∈ mapping)
    (v w : SVal) (hc : ∀ p, dGet k.1 t = some p → Collides str (colIter p) v w) :
    tblSort (textRank key str ord) ps .none t mapping = .error .key := by
  unfold tblSort sortIndex
  rw [if_neg (by rintro rfl; cases hkm), if_neg (by
    rw [not_not, List.all_eq_true]
    intro x hx
    simpa using hk x hx)]
  rw [rankRows_error (textRank key str ord) (fun b l => ⟨_, rfl⟩) t mapping hk k hkm
    (fun p hp => collides_none key str ord hord k.2 (colIter p) v w (hc p hp))]
  rfl

/-! ## the full statement and where it fails -/

/-- what is used of Python's `str` -/
structure PyStr (str : SVal → String) : Prop where
  text : ∀ s, str (.str s) = s
  true_ : str (.bool true) = "True"
  one : str (.num .int 1 1) = "1"

/-- C83 (full statement): sorting in mode "alphanumeric" orders the rows by the texts of the keys -/
def C83_statement : Prop :=
  ∀ (key : String → Nat) (str : SVal → String), PyStr str → ∀ (ord : List SVal → List SVal), (∀ l v, v ∈ ord l ↔ v ∈ l) → ∀ (ps : Nat), 0 < ps →
    ∀ (t : Tbl Nat SVal) (n : Nat), Rect t n → ∀ mapping : List (Nat × Bool), mapping ≠ [] → (∀ k ∈ mapping, k.1 ∈ t.map (·.1)) →
    ∃ idx t', tblSort (textRank key str ord) ps .none t mapping = .ok t' ∧ idx.Perm (List.range n) ∧ tview t' = rowsOf .none t idx ∧
      idx.Pairwise fun i j => InOrder (fun a b => decide (a = b)) (textLt key str) .none t i j mapping

/-- a `str` with these properties -/
def sampleStr : SVal → String
  | .str s => s
  | .bool b => if b then "True" else "False"
  | .num _ v _ => if v = 1 then "1" else "2"
  | .none => "None"

theorem sampleStr_ok : PyStr sampleStr := ⟨fun _ => rfl, by decide +kernel, by decide +kernel⟩

/-- C83 fails: a column with 1 and "1" cannot be sorted, for any `str` with `str(1) == "1"`. -/
theorem C83_one_fails (key : String → K) (str : SVal → String) (hstr : PyStr str) (ord : List SVal → List SVal) (hord : ∀ l v, v ∈ ord l ↔ v ∈ l) (ps : Nat) :
    tblSort (textRank key str ord) ps .none [((0 : Nat), [[.num .int 1 1, .str "1"]])] [(0, false)] = .error .key := by
  refine C83_collision_raises key str ord hord ps _ _ (by decide) (0, false) (by decide) (.num .int 1 1) (.str "1") ?_
  intro p hp
  have : p = [[.num .int 1 1, .str "1"]] := by
    have h : dGet (0 : Nat) [((0 : Nat), ([[.num .int 1 1, .str "1"]] : Pages SVal))] = some [[.num .int 1 1, .str "1"]] := rfl
    rw [h] at hp
    exact (Option.some.inj hp).symm
  subst this
  refine ⟨by decide, by decide, by decide, by rw [hstr.one, hstr.text], ?_, ?_⟩
  · decide +kernel
  · decide +kernel

/-- the full statement is false -/
theorem C83_fails : ¬ C83_statement := by
  intro h
  obtain ⟨_, _, h1, _⟩ := h (fun _ => 0) sampleStr sampleStr_ok id (fun _ _ => Iff.rfl) 10 (by decide) [(0, [[.num .int 1 1, .str "1"]])] 2
    (by unfold Rect; decide) [(0, false)] (by decide) (by decide)
  rw [C83_one_fails (fun _ => 0) sampleStr sampleStr_ok id (fun _ _ => Iff.rfl)] at h1
  cases h1

/-- C83 fails without exception as well: with 1, "a" and True in a column, 1 gets the rank of True and is sorted behind "a", though "1" comes
first. -/
theorem C83_mixed_fails :
    tblSort (textRank (fun s => if s = "1" then 0 else if s = "a" then 1 else 2) sampleStr id) 10 .none
      [((0 : Nat), [[.num .int 1 1, .str "a", .bool true]])] [(0, false)] = .ok [(0, [[.str "a", .num .int 1 1, .bool true]])] := by decide +kernel

/-- a column of texts and numbers that the theorem covers, sorted descending -/
example : tblSort (textRank (fun s => s.length) sampleStr id) 2 .none
    [((0 : Nat), [[.num .int 1 1, .str "abc"], [.none]])] [(0, true)] = .ok [(0, [[.none, .str "abc"], [.num .int 1 1]])] := by decide +kernel

/-- its values meet the hypotheses -/
example : (∀ v ∈ [SVal.num .int 1 1, .str "abc", .none], ∀ w ∈ [SVal.num .int 1 1, .str "abc", .none], sampleStr v = sampleStr w → v = w) ∧
    (∀ v ∈ [SVal.num .int 1 1, .str "abc", .none], ∀ w ∈ [SVal.num .int 1 1, .str "abc", .none], v.pyEq w = true → v = w) := by
  constructor <;> decide +kernel

end

end Tablite
