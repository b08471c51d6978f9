import Verif.Model.Repaginate
import Verif.Lemmas.Paging
import Verif.Props.ColumnRead
import Mathlib.Data.List.Basic
/-!
# C44 repagination
-/

namespace Tablite

theorem paginateLoop_get {α} (ps : Nat) (values : List α) (k start i : Nat) (hi : i < k) :
    (paginateLoop ps values k start)[i]? = some ((values.take (start + i * ps + ps)).drop (start + i * ps)) := by
  induction k generalizing start i with
  | zero => omega
  | succ k ih =>
    rw [paginateLoop]
    cases i with
    | zero => simp
    | succ i =>
      rw [List.getElem?_cons_succ, ih _ _ (by omega)]
      rw [show start + ps + i * ps = start + (i + 1) * ps by rw [Nat.succ_mul]; omega]

/-- the values a list of steps stands for -/
def stepsValues {α} (pages : Pages α) (st : List (Nat × Nat × Nat)) : List α :=
  st.flatMap fun x => ((pages.getD x.1 []).take x.2.2).drop x.2.1

/-- a step stays inside its page -/
def StepOk {α} (pages : Pages α) (x : Nat × Nat × Nat) : Prop := x.1 < pages.length ∧ x.2.2 ≤ (pages.getD x.1 []).length

theorem repPage_ok {α} (pages : Pages α) (ps : Nat) (st : List (Nat × Nat × Nat)) (h : ∀ x ∈ st, StepOk pages x)
    (hl : (stepsValues pages st).length ≤ ps) : repPage pages ps st = .ok (stepsValues pages st) := by
  have h1 : st.mapM (readStep pages) = .ok (st.map fun x => ((pages.getD x.1 []).take x.2.2).drop x.2.1) := by
    clear hl
    induction st with
    | nil => rfl
    | cons x l ih =>
      obtain ⟨h1, h2⟩ := h x List.mem_cons_self
      have hx : readStep pages x = .ok (((pages.getD x.1 []).take x.2.2).drop x.2.1) := by
        unfold readStep
        rw [List.getElem?_eq_getElem h1]
        dsimp only
        rw [List.getD_eq_getElem?_getD, List.getElem?_eq_getElem h1] at h2 ⊢
        rw [if_pos (.inl h2)]; rfl
      rw [List.mapM_cons, hx, ih fun x hx => h x (List.mem_cons_of_mem _ hx)]; rfl
  rw [repPage, h1]
  dsimp only [Except.bind]
  have : (st.map fun x => ((pages.getD x.1 []).take x.2.2).drop x.2.1).flatten = stepsValues pages st := rfl
  rw [this, if_pos hl]

/-- what holds before every round: the counters agree, and the steps found so far stand for the first `offset` values, cut into pages -/
structure RepInv {α} (pages : Pages α) (ps : Nat) (s : RepState) : Prop where
  off : s.offset = ((pages.take s.pgIndex).map List.length).sum + s.consumed
  left : s.offset ≤ (colIter pages).length
  pg : s.pgIndex ≤ pages.length
  con : s.consumed = 0 ∨ ∃ p, pages[s.pgIndex]? = some p ∧ s.consumed < p.length
  cut : s.offset = s.stepIndex * ps + s.pageConsumed
  part : s.pageConsumed < ps
  len : s.steps.length = ((colIter pages).length + ps - 1) / ps
  ok : ∀ st ∈ s.steps, ∀ x ∈ st, StepOk pages x
  val : ∀ k st, s.steps[k]? = some st → stepsValues pages st = (((colIter pages).take s.offset).drop (k * ps)).take ps

theorem take_sum_length {α} (pages : Pages α) (n : Nat) (p : List α) (h : pages[n]? = some p) :
    ((pages.take (n + 1)).map List.length).sum = ((pages.take n).map List.length).sum + p.length := by
  rw [List.take_add_one, h]; simp

theorem colIter_drop {α} (pages : Pages α) (n : Nat) (p : List α) (h : pages[n]? = some p) (c : Nat) (hc : c ≤ p.length) :
    (colIter pages).drop (((pages.take n).map List.length).sum + c) = p.drop c ++ (pages.drop (n + 1)).flatten := by
  have hp : pages = pages.take n ++ p :: pages.drop (n + 1) := by
    obtain ⟨hn, he⟩ := List.getElem?_eq_some_iff.1 h
    rw [← he, List.getElem_cons_drop, List.take_append_drop]
  have hi : colIter pages = (pages.take n).flatten ++ (p ++ (pages.drop (n + 1)).flatten) := by
    rw [colIter_eq]
    conv_lhs => rw [hp]
    simp
  rw [hi, List.drop_append, List.drop_append]
  have hl : (pages.take n).flatten.length = ((pages.take n).map List.length).sum := by simp [List.length_flatten]
  rw [hl, Nat.add_sub_cancel_left, List.drop_eq_nil_of_le (by rw [hl]; omega), List.nil_append, Nat.sub_eq_zero_of_le hc, List.drop_zero]

theorem colIter_length {α} (pages : Pages α) : (colIter pages).length = (pages.map List.length).sum := by
  rw [colIter_eq]; simp [List.length_flatten]

/-- rounds left: values not yet assigned, and pages not yet passed -/
def repLeft {α} (pages : Pages α) (s : RepState) : Nat := (colIter pages).length - s.offset + (pages.length - s.pgIndex)

theorem repStep_ok {α} (pages : Pages α) (ps : Nat) (hps : 0 < ps) (s : RepState) (h : RepInv pages ps s) (ho : s.offset < (colIter pages).length) :
    ∃ s', repStep (pages.map List.length) ps (colIter pages).length s = .ok s' ∧ RepInv pages ps s' ∧ repLeft pages s' < repLeft pages s := by
  have hlen := colIter_length pages
  have hpg : s.pgIndex < pages.length := by
    by_contra hc
    have : ((pages.take s.pgIndex).map List.length).sum = (colIter pages).length := by
      rw [List.take_of_length_le (by omega), hlen]
    have := h.off
    omega
  obtain ⟨p, hp⟩ : ∃ p, pages[s.pgIndex]? = some p := ⟨_, List.getElem?_eq_getElem hpg⟩
  have hcon : s.consumed = 0 ∨ s.consumed < p.length := by
    rcases h.con with h0 | ⟨q, hq, hc⟩
    · exact .inl h0
    · rw [hp] at hq; cases hq; exact .inr hc
  have hcut := h.cut
  have hpart := h.part
  have hidx : s.stepIndex < s.steps.length := by
    rw [h.len, Nat.lt_div_iff_mul_lt hps]
    omega
  obtain ⟨st, hst⟩ : ∃ st, s.steps[s.stepIndex]? = some st := ⟨_, List.getElem?_eq_getElem hidx⟩
  have hshape : (pages.map List.length)[s.pgIndex]? = some p.length := by rw [List.getElem?_map, hp]; rfl
  unfold repStep
  rw [hst, hshape]
  dsimp only
  generalize hn : min (min ((colIter pages).length - s.offset) (ps - s.pageConsumed)) (p.length - s.consumed) = n
  have hn1 : n ≤ (colIter pages).length - s.offset := by omega
  have hn2 : n ≤ ps - s.pageConsumed := by omega
  have hn3 : n ≤ p.length - s.consumed := by omega
  have hcp : s.consumed ≤ p.length := by omega
  have htake := take_sum_length pages s.pgIndex p hp
  have hoff := h.off
  have hdrop := colIter_drop pages s.pgIndex p hp s.consumed hcp
  rw [← hoff] at hdrop
  have hgetD : pages.getD s.pgIndex [] = p := by rw [List.getD_eq_getElem?_getD, hp]; rfl
  -- the values this round assigns
  have hslice : (p.take (s.consumed + n)).drop s.consumed = ((colIter pages).drop s.offset).take n := by
    rw [hdrop, List.drop_take, Nat.add_sub_cancel_left, List.take_append_of_le_length (by rw [List.length_drop]; omega)]
  refine ⟨_, rfl, ?_, ?_⟩
  · constructor
    · dsimp only
      split_ifs with hc
      · omega
      · omega
    · dsimp only; omega
    · dsimp only; split_ifs <;> omega
    · dsimp only
      split_ifs with hc
      · exact .inl rfl
      · exact .inr ⟨p, hp, by omega⟩
    · dsimp only
      split_ifs with hc
      · rw [Nat.succ_mul]; omega
      · omega
    · dsimp only
      split_ifs with hc <;> omega
    · dsimp only; rw [List.length_modify]; exact h.len
    · dsimp only
      intro st' hst' x hx
      obtain ⟨k, hk⟩ := List.mem_iff_getElem?.1 hst'
      rw [List.getElem?_modify] at hk
      cases hs : s.steps[k]? with
      | none => rw [hs] at hk; simp at hk
      | some old =>
        rw [hs] at hk
        have hold := h.ok old (List.mem_of_getElem? hs)
        simp only [Option.map_eq_map, Option.map_some, Option.some.injEq] at hk
        split_ifs at hk with he
        · rw [← hk] at hx
          rcases List.mem_append.1 hx with hx | hx
          · exact hold x hx
          · rw [List.mem_singleton] at hx
            subst hx
            refine ⟨hpg, ?_⟩
            dsimp only
            rw [hgetD]; omega
        · rw [← hk] at hx; exact hold x hx
    · dsimp only
      intro k st' hk
      rw [List.getElem?_modify] at hk
      cases hs : s.steps[k]? with
      | none => rw [hs] at hk; simp at hk
      | some old =>
        rw [hs] at hk
        have hold := h.val k old hs
        simp only [Option.map_eq_map, Option.map_some, Option.some.injEq] at hk
        have hkl : k < s.steps.length := (List.getElem?_eq_some_iff.1 hs).1
        split_ifs at hk with he
        · subst he
          rw [← hk]
          have : stepsValues pages (old ++ [(s.pgIndex, s.consumed, s.consumed + n)]) =
              stepsValues pages old ++ ((pages.getD s.pgIndex []).take (s.consumed + n)).drop s.consumed := by
            simp [stepsValues]
          rw [this, hold, hgetD, hslice]
          -- both sides are the values from the start of the page being filled
          have e1 : (((colIter pages).take s.offset).drop (s.stepIndex * ps)).length = s.pageConsumed := by
            rw [List.length_drop, List.length_take]; omega
          rw [List.take_of_length_le (by rw [e1]; omega)]
          rw [show (colIter pages).take (s.offset + n) = (colIter pages).take s.offset ++ ((colIter pages).drop s.offset).take n from List.take_add]
          rw [List.drop_append_of_le_length (by rw [List.length_take]; omega)]
          generalize ((colIter pages).take s.offset).drop (s.stepIndex * ps) = A at e1 ⊢
          rw [List.take_of_length_le (l := A ++ _)]
          rw [List.length_append, e1, List.length_take]; omega
        · rw [← hk, hold]
          rcases Nat.lt_or_gt_of_ne (fun e => he (by omega) : s.stepIndex ≠ k) with hlt | hgt
          · have : s.stepIndex * ps + ps ≤ k * ps := by
              have := Nat.mul_le_mul_right ps (show s.stepIndex + 1 ≤ k by omega)
              rw [Nat.succ_mul] at this; omega
            rw [List.drop_eq_nil_of_le (by rw [List.length_take]; omega), List.drop_eq_nil_of_le (by rw [List.length_take]; omega)]
          · have hk2 : k * ps + ps ≤ s.stepIndex * ps := by
              have := Nat.mul_le_mul_right ps (show k + 1 ≤ s.stepIndex by omega)
              rw [Nat.succ_mul] at this; omega
            rw [show (colIter pages).take (s.offset + n) = (colIter pages).take s.offset ++ ((colIter pages).drop s.offset).take n from List.take_add]
            rw [List.drop_append_of_le_length (by rw [List.length_take]; omega)]
            rw [List.take_append_of_le_length (by rw [List.length_drop, List.length_take]; omega)]
  · unfold repLeft
    dsimp only
    split_ifs with hc <;> omega

theorem repLoop_ok {α} (pages : Pages α) (ps : Nat) (hps : 0 < ps) (fuel : Nat) (s : RepState) (h : RepInv pages ps s) (hf : repLeft pages s ≤ fuel) :
    ∃ s', repLoop (pages.map List.length) ps (colIter pages).length fuel s = .ok s' ∧ RepInv pages ps s' ∧ s'.offset = (colIter pages).length := by
  induction fuel generalizing s with
  | zero =>
    have := h.left
    have : ¬ s.offset < (colIter pages).length := by unfold repLeft at hf; omega
    exact ⟨s, by rw [repLoop, if_neg this], h, by omega⟩
  | succ fuel ih =>
    have hl := h.left
    rw [repLoop]
    split_ifs with ho
    · obtain ⟨s', h1, h2, h3⟩ := repStep_ok pages ps hps s h ho
      rw [h1]
      exact ih s' h2 (by omega)
    · exact ⟨s, rfl, h, by omega⟩

theorem mapM_congr_ok {β γ : Type _} (f : β → Except Err γ) (g : β → γ) (l : List β) (h : ∀ x ∈ l, f x = .ok (g x)) : l.mapM f = .ok (l.map g) := by
  induction l with
  | nil => rfl
  | cons x l ih => rw [List.mapM_cons, h x List.mem_cons_self, ih fun x hx => h x (List.mem_cons_of_mem _ hx)]; rfl

theorem repaginate_eq {α} (ps : Nat) (hps : 0 < ps) (pages : Pages α) : repaginate ps pages = .ok (paginate ps (colIter pages)) := by
  unfold repaginate
  split_ifs with he
  · rw [List.isEmpty_iff] at he
    subst he
    rw [paginate, show ((colIter ([] : Pages α)).length + ps - 1) / ps = 0 from Nat.div_eq_of_lt (by simp [colIter]; omega)]
    rfl
  · rw [calcRepaginationSteps, if_neg (by omega)]
    dsimp only
    rw [← colIter_length, List.length_map]
    have h0 : RepInv pages ps ⟨List.replicate (((colIter pages).length + ps - 1) / ps) [], 0, 0, 0, 0, 0⟩ := by
      constructor
      · simp
      · simp
      · simp
      · exact .inl rfl
      · simp
      · exact hps
      · simp
      · intro st hst x hx
        rw [(List.mem_replicate.1 hst).2] at hx; cases hx
      · intro k st hk
        have := List.mem_of_getElem? hk
        rw [(List.mem_replicate.1 this).2]
        simp [stepsValues]
    obtain ⟨s, h1, h2, h3⟩ := repLoop_ok pages ps hps ((colIter pages).length + pages.length) _ h0 (by simp [repLeft])
    rw [h1]
    dsimp only [Except.bind]
    rw [mapM_congr_ok _ (stepsValues pages)]
    · congr 1
      apply List.ext_getElem?
      intro k
      rw [List.getElem?_map]
      cases hk : s.steps[k]? with
      | none =>
        rw [List.getElem?_eq_none_iff] at hk
        rw [h2.len] at hk
        symm
        rw [Option.map_none, List.getElem?_eq_none_iff, paginate, paginateLoop_length]
        exact hk
      | some st =>
        have hl := (List.getElem?_eq_some_iff.1 hk).1
        rw [h2.len] at hl
        rw [Option.map_some, paginate, paginateLoop_get _ _ _ _ _ hl, h2.val k st hk, h3, List.take_length, Nat.zero_add]
        rw [List.drop_take, Nat.add_sub_cancel_left]
    · intro st hst
      obtain ⟨k, hk⟩ := List.mem_iff_getElem?.1 hst
      apply repPage_ok _ _ _ (h2.ok st hst)
      rw [h2.val k st hk, List.length_take]
      omega

/-- C44: repagination succeeds for every page layout, keeps the values, and all pages but the last are full; the last is not empty. -/
theorem C44_repaginate {α} (ps : Nat) (hps : 0 < ps) (pages : Pages α) : ∃ new, repaginate ps pages = .ok new ∧
    new.flatten = pages.flatten ∧
    (∀ i, i + 1 < new.length → (new[i]?).map List.length = some ps) ∧
    (∀ p ∈ new, 0 < p.length ∧ p.length ≤ ps) := by
  refine ⟨_, repaginate_eq ps hps pages, ?_, ?_, ?_⟩
  · rw [paginate_flatten hps, colIter_eq]
  · exact (C01_full_pages ps hps _).2
  · exact paginate_sizes hps _

/-- C44: repaginating twice changes nothing -/
theorem C44_twice {α} (ps : Nat) (hps : 0 < ps) (pages new : Pages α) (h : repaginate ps pages = .ok new) : repaginate ps new = .ok new := by
  rw [repaginate_eq ps hps] at h
  cases h
  rw [repaginate_eq ps hps]
  congr 2
  rw [colIter_eq, paginate_flatten hps]

/-- pages of uneven length, two of them empty -/
example : repaginate 3 [[1], [], [2, 3, 4, 5], [], [6, 7]] = .ok [[1, 2, 3], [4, 5, 6], [7]] := by decide
example : repaginate 3 ([[], []] : Pages Nat) = .ok [] := by decide

end Tablite
