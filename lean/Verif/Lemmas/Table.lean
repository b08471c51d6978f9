import Verif.Model.Table
import Verif.Lemmas.OrdDict
import Verif.Props.ColumnQuery
/-! Lemmas about tables. -/

namespace Tablite

set_option linter.unusedSectionVars false

section
variable {ν α : Type} [DecidableEq ν]

theorem mapM_ok {β γ : Type} (l : List β) (f : β → Except Err γ) (g : β → γ) (h : ∀ x ∈ l, f x = .ok (g x)) :
    l.mapM f = .ok (l.map g) := by
  induction l with
  | nil => rfl
  | cons a t ih =>
    rw [List.mapM_cons, h a (by simp), ih (fun x hx => h x (by simp [hx]))]
    rfl

theorem mapM_congr' {β γ : Type} (l : List β) (f g : β → Except Err γ) (h : ∀ x ∈ l, f x = g x) : l.mapM f = l.mapM g := by
  induction l with
  | nil => rfl
  | cons a t ih =>
    rw [List.mapM_cons, List.mapM_cons, h a (by simp), ih (fun x hx => h x (by simp [hx]))]

theorem mapM_error {β γ : Type} (l : List β) (f : β → Except Err γ) (e : Err) (hne : l ≠ []) (h : ∀ x ∈ l, f x = .error e) :
    l.mapM f = .error e := by
  cases l with
  | nil => exact absurd rfl hne
  | cons a t =>
    rw [List.mapM_cons, h a (by simp)]
    rfl

/-! ### page steps -/

theorem pageStepsLoop_spec (ps n : Nat) (hps : 0 < ps) (k e : Nat) (he : e ≤ n) (hk : n < e + k * ps) :
    ((pageStepsLoop ps n k e).flatMap fun se => List.range' se.1 (se.2 - se.1)) = List.range' e (n - e) ∧
    (∀ se ∈ pageStepsLoop ps n k e, se.1 ≤ se.2 ∧ se.2 ≤ n ∧ se.2 ≤ se.1 + ps ∧ (e < n → se.1 < se.2)) ∧
    pageStepsLoop ps n k e ≠ [] := by
  induction k generalizing e with
  | zero => omega
  | succ k ih =>
    simp only [pageStepsLoop]
    by_cases h : min (e + ps) n = n
    · have : n ≤ e + ps := by omega
      simp only [h, if_true, List.flatMap_cons, List.flatMap_nil, List.append_nil, List.mem_singleton, ne_eq, List.cons_ne_self,
        not_false_eq_true, and_true, true_and]
      intro se hse
      subst hse
      simp only
      omega
    · have hm : min (e + ps) n = e + ps := by omega
      rw [hm] at h
      simp only [hm, h, if_false]
      have : e + ps + k * ps = e + (k + 1) * ps := by rw [Nat.add_mul]; omega
      obtain ⟨i1, i2, i3⟩ := ih (e + ps) (by omega) (by omega)
      refine ⟨?_, ?_, by simp⟩
      · rw [List.flatMap_cons, i1]
        simp only
        have e1 : e + ps - e = ps := by omega
        have e2 : n - e = ps + (n - (e + ps)) := by omega
        rw [e1, e2, ← List.range'_append_1]
      · intro se hse
        rcases List.mem_cons.1 hse with rfl | hse
        · simp only; omega
        · have := i2 se hse
          omega

theorem div_succ_mul (n ps : Nat) (hps : 0 < ps) : n < 0 + (n / ps + 1) * ps := by
  have := Nat.lt_div_mul_add hps (a := n)
  rw [Nat.add_mul, Nat.one_mul, Nat.zero_add]
  exact this

theorem take_drop_eq_range' {β : Type} (l : List β) (s e : Nat) : (l.take e).drop s = (List.range' s (e - s)).filterMap fun i => l[i]? := by
  apply List.ext_getElem?
  intro i
  have hf : ∀ (n s : Nat), ((List.range' s n).filterMap fun i => l[i]?)[i]? = if i < n then l[s + i]? else none := by
    intro n
    induction n generalizing i with
    | zero => intro s; simp
    | succ n ih =>
      intro s
      rw [List.range'_succ, List.filterMap_cons]
      cases hs : l[s]? with
      | none =>
        have hl : l.length ≤ s := by
          rcases Nat.lt_or_ge s l.length with h | h
          · rw [List.getElem?_eq_getElem h] at hs; cases hs
          · exact h
        rw [ih]
        rw [List.getElem?_eq_none (by omega), List.getElem?_eq_none (by omega)]
        simp
      | some v =>
        cases i with
        | zero => simp [hs]
        | succ i =>
          simp only [List.getElem?_cons_succ, ih]
          rw [show s + 1 + i = s + (i + 1) by omega]
          by_cases h : i < n <;> simp [h]
  rw [hf]
  simp only [List.getElem?_drop, List.getElem?_take]
  by_cases h : i < e - s
  · rw [if_pos h, if_pos (by omega)]
  · rw [if_neg h, if_neg (by omega)]

/-- cutting a list at the page steps and putting the pieces together gives the list -/
theorem pageSteps_slices {β : Type} (ps : Nat) (hps : 0 < ps) (l : List β) :
    ((pageSteps ps l.length).map fun se => (l.take se.2).drop se.1).flatten = l := by
  have h := (pageStepsLoop_spec ps l.length hps (l.length / ps + 1) 0 (by omega) (div_succ_mul _ _ hps)).1
  unfold pageSteps
  have e : ((pageStepsLoop ps l.length (l.length / ps + 1) 0).map fun se => (l.take se.2).drop se.1).flatten =
      ((pageStepsLoop ps l.length (l.length / ps + 1) 0).flatMap fun se => List.range' se.1 (se.2 - se.1)).filterMap fun i => l[i]? := by
    generalize pageStepsLoop ps l.length (l.length / ps + 1) 0 = steps
    induction steps with
    | nil => rfl
    | cons a t ih =>
      simp only [List.map_cons, List.flatten_cons, List.flatMap_cons, List.filterMap_append, ih]
      rw [take_drop_eq_range']
  rw [e, h]
  have := take_drop_eq_range' l 0 l.length
  simp only [Nat.sub_zero, List.take_length, List.drop_zero] at this
  exact this.symm

/-! ### length, rows -/

theorem foldl_max_ge (l : List Nat) (m : Nat) : m ≤ l.foldl max m ∧ ∀ x ∈ l, x ≤ l.foldl max m := by
  induction l generalizing m with
  | nil => simp
  | cons a t ih =>
    simp only [List.foldl_cons, List.mem_cons]
    obtain ⟨h1, h2⟩ := ih (max m a)
    refine ⟨by omega, ?_⟩
    rintro x (rfl | hx)
    · omega
    · exact h2 x hx

theorem foldl_max_mem (l : List Nat) (m : Nat) : l.foldl max m = m ∨ l.foldl max m ∈ l := by
  induction l generalizing m with
  | nil => simp
  | cons a t ih =>
    simp only [List.foldl_cons, List.mem_cons]
    rcases ih (max m a) with h | h
    · rw [h]; rcases Nat.le_total m a with h' | h'
      · right; left; omega
      · left; omega
    · right; right; exact h

theorem colLen_le_tblLen (t : Tbl ν α) (c : ν × Pages α) (h : c ∈ t) : colLen c.2 ≤ tblLen t :=
  (foldl_max_ge _ 0).2 _ (List.mem_map.2 ⟨c, h, rfl⟩)

theorem tblLen_rect (t : Tbl ν α) (n : Nat) (h : Rect t n) (hne : t ≠ []) : tblLen t = n := by
  have h2 : n ≤ tblLen t := by
    obtain ⟨c, hc⟩ := List.exists_mem_of_ne_nil t hne
    rw [← h c hc]; exact colLen_le_tblLen t c hc
  rcases foldl_max_mem (t.map fun c => colLen c.2) 0 with e | e
  · have e' : tblLen t = 0 := e
    omega
  · obtain ⟨c, hc, e2⟩ := List.mem_map.1 e
    have e' : colLen c.2 = tblLen t := e2
    rw [← e', h c hc]

theorem nextAll_ok (nul : α) (gs : List (List α)) (h : ∀ g ∈ gs, g ≠ []) :
    nextAll gs = .ok (gs.map fun g => g.getD 0 nul, gs.map List.tail) := by
  induction gs with
  | nil => rfl
  | cons g t ih =>
    cases g with
    | nil => exact absurd rfl (h [] (by simp))
    | cons v g =>
      simp only [nextAll, ih (fun x hx => h x (by simp [hx]))]
      rfl

theorem tail_getD (nul : α) (g : List α) (i : Nat) : g.tail.getD i nul = g.getD (i + 1) nul := by
  cases g with
  | nil => simp
  | cons v g => simp

theorem range_succ_map {β : Type} (n : Nat) (f : Nat → β) : (List.range (n + 1)).map f = f 0 :: (List.range n).map fun i => f (i + 1) := by
  rw [List.range_succ_eq_map, List.map_cons, List.map_map]; rfl

theorem rowsLoop_ok (nul : α) (n : Nat) (gs : List (List α)) (h : ∀ g ∈ gs, n ≤ g.length) :
    rowsLoop n gs = .ok ((List.range n).map fun i => gs.map fun g => g.getD i nul) := by
  induction n generalizing gs with
  | zero => rfl
  | succ n ih =>
    have hne : ∀ g ∈ gs, g ≠ [] := by
      intro g hg e
      have := h g hg
      simp [e] at this
    simp only [rowsLoop, nextAll_ok nul gs hne]
    have := ih (gs.map List.tail) (by
      intro g hg
      obtain ⟨g', hg', rfl⟩ := List.mem_map.1 hg
      have := h g' hg'
      simp; omega)
    simp only [bind, Except.bind, this]
    congr 1
    rw [range_succ_map]
    congr 1
    apply List.map_congr_left
    intro i _
    rw [List.map_map]
    apply List.map_congr_left
    intro g _
    exact tail_getD nul g i

theorem zipRows_ok (nul : α) (n : Nat) (gs : List (List α)) (hne : gs ≠ []) (h : ∀ g ∈ gs, g.length = n) :
    zipRows n gs = (List.range n).map fun i => gs.map fun g => g.getD i nul := by
  induction n generalizing gs with
  | zero => rfl
  | succ n ih =>
    have hne' : ∀ g ∈ gs, g ≠ [] := by
      intro g hg e
      have := h g hg
      simp [e] at this
    simp only [zipRows, nextAll_ok nul gs hne', if_neg hne]
    rw [ih (gs.map List.tail) (by simpa using hne) (by
      intro g hg
      obtain ⟨g', hg', rfl⟩ := List.mem_map.1 hg
      have := h g' hg'
      simp; omega), range_succ_map]
    congr 1
    apply List.map_congr_left
    intro i _
    rw [List.map_map]
    apply List.map_congr_left
    intro g _
    exact tail_getD nul g i

/-! ### dictionaries of columns -/

theorem dGet_isSome {β : Type} (k : ν) (t : List (ν × β)) : (dGet k t).isSome = true ↔ k ∈ t.map (·.1) := by
  induction t with
  | nil => simp [dGet]
  | cons c u ih =>
    obtain ⟨k', b⟩ := c
    simp only [dGet, List.map_cons, List.mem_cons]
    by_cases h : k' = k
    · simp [h]
    · have : ¬ k = k' := fun e => h e.symm
      simp [h, this, ih]

theorem dGet_none {β : Type} (k : ν) (t : List (ν × β)) : dGet k t = none ↔ k ∉ t.map (·.1) := by
  rw [← dGet_isSome]
  cases dGet k t <;> simp

theorem dGet_mem {β : Type} (k : ν) (t : List (ν × β)) (b : β) (h : dGet k t = some b) : (k, b) ∈ t := by
  induction t with
  | nil => simp [dGet] at h
  | cons c u ih =>
    obtain ⟨k', b'⟩ := c
    simp only [dGet] at h
    split at h
    · rename_i e; injection h with h; subst h e; simp
    · exact List.mem_cons_of_mem _ (ih h)

theorem dGet_of_mem {β : Type} (t : List (ν × β)) (hn : (t.map (·.1)).Nodup) (c : ν × β) (h : c ∈ t) : dGet c.1 t = some c.2 := by
  induction t with
  | nil => simp at h
  | cons d u ih =>
    obtain ⟨k', b'⟩ := d
    simp only [List.map_cons, List.nodup_cons] at hn
    simp only [dGet]
    rcases List.mem_cons.1 h with rfl | h
    · simp
    · rw [if_neg]
      · exact ih hn.2 h
      · intro e
        apply hn.1
        rw [e]
        exact List.mem_map.2 ⟨c, h, rfl⟩

theorem tbl_repr {β : Type} (t : List (ν × β)) (hn : (t.map (·.1)).Nodup) (g : ν → β) (hg : ∀ x b, dGet x t = some b → g x = b) :
    t = (t.map (·.1)).map fun x => (x, g x) := by
  rw [List.map_map]
  conv => lhs; rw [← List.map_id t]
  apply List.map_congr_left
  intro c hc
  have := hg c.1 c.2 (dGet_of_mem t hn c hc)
  simp only [Function.comp, id_eq, this]

/-! ### slicing -/

theorem sliceItemsLoop_map (isRev : Bool) (r : PyRange) (s : Int) (pages : Pages α) :
    (sliceItemsLoop isRev r s pages).map (List.map Prod.snd) = getpagesLoop isRev r s pages := by
  induction pages generalizing s with
  | nil => rfl
  | cons p t ih =>
    have ih := ih (s + p.length)
    simp only [sliceItemsLoop, getpagesLoop]
    split
    · rfl
    · split
      · exact ih
      · split
        · rfl
        · split
          · exact ih
          · cases intercept ⟨s, s + p.length, 1⟩ r with
            | error e => rfl
            | ok ro =>
              simp only [bind, Except.bind]
              rw [← ih]
              cases sliceItemsLoop isRev r (s + p.length) t with
              | error e => rfl
              | ok more =>
                by_cases h1 : ro.len = 0
                · simp [Except.map, h1]
                · by_cases h2 : ro.len = p.length
                  · simp only [Except.map, h2, if_true]
                    by_cases h3 : p.length = 0
                    · omega
                    · simp only [h3, if_false, List.map_cons]
                  · simp only [Except.map, h1, h2, if_false, List.map_cons]

theorem sliceItems_map (pages : Pages α) (s : PySlice) : (sliceItems pages s).map (List.map Prod.snd) = getpages pages s := by
  unfold sliceItems getpages
  split
  · rfl
  · dsimp only
    have h := sliceItemsLoop_map (isReversed s) ⟨(s.indices (colLen pages)).1, (s.indices (colLen pages)).2.1, (s.indices (colLen pages)).2.2⟩ 0 pages
    rw [← h]
    cases sliceItemsLoop (isReversed s) ⟨(s.indices (colLen pages)).1, (s.indices (colLen pages)).2.1, (s.indices (colLen pages)).2.2⟩ 0 pages with
    | error e => rfl
    | ok out =>
      simp only [bind, Except.bind, Except.map]
      congr 1
      split
      · simp [List.map_map, Function.comp_def]
      · rfl

theorem foldl_items (ps : Nat) (hps : 0 < ps) (items : List (Bool × List α)) (acc : Pages α) :
    (items.foldl (fun new it => if it.1 then new ++ [it.2] else extend ps new it.2) acc).flatten =
      acc.flatten ++ (items.map Prod.snd).flatten := by
  induction items generalizing acc with
  | nil => simp
  | cons a t ih =>
    simp only [List.foldl_cons, ih, List.map_cons, List.flatten_cons]
    split
    · simp
    · simp [extend, paginate_flatten hps]

/-- the values of a sliced column are those of the column slice -/
theorem sliceCol_values (ps : Nat) (hps : 0 < ps) (pages : Pages α) (s : PySlice) :
    (sliceCol ps pages s).map colIter = getSlice pages s := by
  unfold sliceCol getSlice
  rw [← sliceItems_map]
  cases sliceItems pages s with
  | error e => rfl
  | ok items =>
    simp only [bind, Except.bind, Except.map]
    rw [colIter_eq, foldl_items ps hps]
    simp

end

end Tablite
