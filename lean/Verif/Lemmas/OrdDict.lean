import Verif.Spec.Grouping
import Verif.Model.OrdDict
/-! Lemmas: grouping loops compute first-occurrence order and per-key folds. -/

namespace Tablite

section
variable {κ : Type} [DecidableEq κ]

theorem mem_firstOccs {l : List κ} {a : κ} : a ∈ firstOccs l ↔ a ∈ l := by
  induction l with
  | nil => simp [firstOccs]
  | cons b t ih =>
    simp only [firstOccs, List.mem_cons, List.mem_filter, ih, decide_eq_true_eq]
    by_cases h : a = b <;> simp [h]

theorem nodup_firstOccs (l : List κ) : (firstOccs l).Nodup := by
  induction l with
  | nil => simp [firstOccs]
  | cons b t ih =>
    simp only [firstOccs, List.nodup_cons, List.mem_filter, ne_eq, not_true_eq_false, decide_false, Bool.false_eq_true, and_false,
      not_false_eq_true, true_and]
    exact ih.sublist (List.filter_sublist)

theorem firstOccs_sublist (l : List κ) : (firstOccs l).Sublist l := by
  induction l with
  | nil => simp [firstOccs]
  | cons b t ih =>
    simp only [firstOccs]
    exact (List.Sublist.trans List.filter_sublist ih).cons_cons b

theorem firstOccs_filter (p : κ → Bool) (l : List κ) : firstOccs (l.filter p) = (firstOccs l).filter p := by
  induction l with
  | nil => rfl
  | cons b t ih =>
    by_cases h : p b
    · simp only [List.filter_cons, h, if_true, firstOccs, ih, List.filter_filter]
      congr 1
      apply List.filter_congr
      intro x _
      exact Bool.and_comm _ _
    · simp only [List.filter_cons, h, Bool.false_eq_true, if_false, firstOccs, ih, List.filter_filter]
      apply List.filter_congr
      intro x _
      by_cases hx : x = b
      · subst hx; simp [h]
      · simp [hx]

theorem firstOccs_append (l m : List κ) : firstOccs (l ++ m) = firstOccs l ++ (firstOccs m).filter (fun x => x ∉ l) := by
  induction l with
  | nil => simp only [List.nil_append, firstOccs]; exact (List.filter_eq_self.2 (by simp)).symm
  | cons b t ih =>
    simp only [List.cons_append, firstOccs, ih, List.filter_append, List.filter_filter]
    congr 2
    apply List.filter_congr
    intro x _
    by_cases h1 : x = b <;> by_cases h2 : x ∈ t <;> simp [h1, h2]

theorem firstOccs_snoc (l : List κ) (a : κ) : firstOccs (l ++ [a]) = if a ∈ l then firstOccs l else firstOccs l ++ [a] := by
  rw [firstOccs_append]
  by_cases h : a ∈ l <;> simp [firstOccs, h]

theorem firstOccs_of_nodup {l : List κ} (h : l.Nodup) : firstOccs l = l := by
  induction l with
  | nil => rfl
  | cons a t ih =>
    simp only [List.nodup_cons] at h
    simp only [firstOccs, ih h.2]
    rw [List.filter_eq_self.2]
    intro x hx
    simp only [decide_eq_true_eq]
    intro e; subst e; exact h.1 hx

theorem firstOccs_idem (l : List κ) : firstOccs (firstOccs l) = firstOccs l := firstOccs_of_nodup (nodup_firstOccs l)

/-! ### positions -/

theorem positionsFrom_shift {α} (p : α → Bool) (i j : Nat) (l : List α) :
    positionsFrom p (i + j) l = (positionsFrom p i l).map (· + j) := by
  induction l generalizing i with
  | nil => rfl
  | cons a t ih =>
    simp only [positionsFrom]
    rw [show i + j + 1 = (i + 1) + j by omega, ih]
    split <;> simp

theorem mem_positionsFrom {α} (p : α → Bool) (i : Nat) (l : List α) (n : Nat) :
    n ∈ positionsFrom p i l ↔ ∃ a, i ≤ n ∧ l[n - i]? = some a ∧ p a = true := by
  induction l generalizing i with
  | nil => simp [positionsFrom]
  | cons a t ih =>
    have key : n ∈ positionsFrom p (i + 1) t ↔ ∃ b, i + 1 ≤ n ∧ (a :: t)[n - i]? = some b ∧ p b = true := by
      rw [ih]
      constructor
      · rintro ⟨b, h1, h2, h3⟩
        refine ⟨b, h1, ?_, h3⟩
        rw [show n - i = (n - (i + 1)) + 1 by omega]; simpa using h2
      · rintro ⟨b, h1, h2, h3⟩
        refine ⟨b, h1, ?_, h3⟩
        rw [show n - i = (n - (i + 1)) + 1 by omega] at h2; simpa using h2
    simp only [positionsFrom]
    split
    · rename_i h
      rw [List.mem_cons, key]
      constructor
      · rintro (rfl | ⟨b, h1, h2, h3⟩)
        · exact ⟨a, Nat.le_refl _, by simp, h⟩
        · exact ⟨b, by omega, h2, h3⟩
      · rintro ⟨b, h1, h2, h3⟩
        by_cases hn : n = i
        · exact Or.inl hn
        · exact Or.inr ⟨b, by omega, h2, h3⟩
    · rename_i h
      rw [key]
      constructor
      · rintro ⟨b, h1, h2, h3⟩; exact ⟨b, by omega, h2, h3⟩
      · rintro ⟨b, h1, h2, h3⟩
        by_cases hn : n = i
        · subst hn
          simp only [Nat.sub_self, List.getElem?_cons_zero, Option.some.injEq] at h2
          subst h2; exact absurd h3 h
        · exact ⟨b, by omega, h2, h3⟩

theorem positionsFrom_ge {α} (p : α → Bool) (i : Nat) (l : List α) : ∀ n ∈ positionsFrom p i l, i ≤ n := by
  intro n hn
  obtain ⟨_, h, _⟩ := (mem_positionsFrom p i l n).1 hn
  exact h

theorem positionsFrom_sorted {α} (p : α → Bool) (i : Nat) (l : List α) : (positionsFrom p i l).Pairwise (· < ·) := by
  induction l generalizing i with
  | nil => simp [positionsFrom]
  | cons a t ih =>
    simp only [positionsFrom]
    split
    · rw [List.pairwise_cons]
      exact ⟨fun n hn => by have := positionsFrom_ge _ _ _ n hn; omega, ih _⟩
    · exact ih _

theorem positionsFrom_append {α} (p : α → Bool) (i : Nat) (l m : List α) :
    positionsFrom p i (l ++ m) = positionsFrom p i l ++ positionsFrom p (i + l.length) m := by
  induction l generalizing i with
  | nil => simp [positionsFrom]
  | cons a t ih =>
    simp only [List.cons_append, positionsFrom, ih, List.length_cons]
    rw [show i + 1 + t.length = i + (t.length + 1) by omega]
    split <;> simp

theorem positionsFrom_length {α} (p : α → Bool) (i : Nat) (l : List α) : (positionsFrom p i l).length = l.countP p := by
  induction l generalizing i with
  | nil => rfl
  | cons a t ih =>
    simp only [positionsFrom, List.countP_cons]
    split <;> simp_all

theorem positionsFrom_eq_zipIdx {α} (p : α → Bool) (i : Nat) (l : List α) :
    ((l.zipIdx i).filter (fun x => p x.1)).map (·.2) = positionsFrom p i l := by
  induction l generalizing i with
  | nil => rfl
  | cons a t ih =>
    simp only [List.zipIdx_cons, List.filter_cons, positionsFrom]
    split <;> simp [ih]

/-- positions read back give exactly the filtered list -/
theorem positionsFrom_getElem {α} (p : α → Bool) (l : List α) : (positionsFrom p 0 l).filterMap (fun i => l[i]?) = l.filter p := by
  have : ∀ (k : Nat) (u : List α), (positionsFrom p 0 u).filterMap (fun i => u[i]?) = u.filter p := by
    intro _ u
    induction u with
    | nil => rfl
    | cons a t ih =>
      simp only [positionsFrom, List.filter_cons]
      have e : positionsFrom p (0 + 1) t = (positionsFrom p 0 t).map (· + 1) := positionsFrom_shift p 0 1 t
      have e2 : (positionsFrom p (0 + 1) t).filterMap (fun i => (a :: t)[i]?) = t.filter p := by
        rw [e, List.filterMap_map, ← ih]
        congr 1
      split
      · simp only [List.filterMap_cons, List.getElem?_cons_zero, e2]
      · exact e2
  exact this 0 l

/-! ### dictionaries -/

variable {α β : Type}

theorem dUpd_eq (init : β) (k : κ) (f : β → β) (ks : List κ) (hn : ks.Nodup) (g : κ → β) (hg : k ∉ ks → g k = init) :
    dUpd init k f (ks.map fun x => (x, g x)) =
      (if k ∈ ks then ks else ks ++ [k]).map fun x => (x, if x = k then f (g x) else g x) := by
  induction ks with
  | nil => simp [dUpd, hg]
  | cons a t ih =>
    simp only [List.nodup_cons] at hn
    simp only [List.map_cons, dUpd]
    by_cases h : a = k
    · subst h
      simp only [if_true, List.mem_cons, true_or, List.map_cons, List.cons.injEq, true_and]
      apply List.map_congr_left
      intro x hx
      have : x ≠ a := by intro e; subst e; exact hn.1 hx
      simp [this]
    · have hka : ¬ k = a := fun e => h e.symm
      rw [if_neg h, ih hn.2 (fun hk => hg (by simp [hka, hk]))]
      by_cases hk : k ∈ t
      · simp [hk, h, hka]
      · simp [hk, h, hka]

/-- a grouping loop yields the distinct keys in first-occurrence order, each with the fold over exactly its own elements in order. -/
theorem dGroup_eq (key : α → κ) (init : β) (f : α → β → β) (xs : List α) :
    dGroup key init f xs =
      (firstOccs (xs.map key)).map fun k => (k, (xs.filter fun x => key x = k).foldl (fun b x => f x b) init) := by
  unfold dGroup
  have H : ∀ (ys zs : List α),
      zs.foldl (fun d x => dUpd init (key x) (f x) d) ((firstOccs (ys.map key)).map fun k => (k, (ys.filter fun x => key x = k).foldl (fun b x => f x b) init))
      = (firstOccs ((ys ++ zs).map key)).map fun k => (k, ((ys ++ zs).filter fun x => key x = k).foldl (fun b x => f x b) init) := by
    intro ys zs
    induction zs generalizing ys with
    | nil => simp
    | cons z t ih =>
      simp only [List.foldl_cons]
      rw [dUpd_eq init (key z) (f z) _ (nodup_firstOccs _)]
      · have := ih (ys ++ [z])
        rw [show ys ++ z :: t = (ys ++ [z]) ++ t by simp, ← this]
        congr 1
        rw [List.map_append, List.map_singleton, firstOccs_snoc]
        simp only [mem_firstOccs]
        apply List.map_congr_left
        intro x _
        congr 1
        rw [List.filter_append, List.foldl_append]
        by_cases hx : x = key z
        · subst hx; simp
        · have : ¬ key z = x := fun e => hx e.symm
          simp [hx, this]
      · intro hk
        rw [mem_firstOccs] at hk
        have : (ys.filter fun x => key x = key z) = [] := by
          rw [List.filter_eq_nil_iff]
          intro y hy
          simp only [decide_eq_true_eq]
          intro e
          exact hk (by rw [← e]; exact List.mem_map.2 ⟨y, hy, rfl⟩)
        rw [this]; rfl
  have := H [] xs
  simpa [firstOccs] using this

theorem dGet_map (ks : List κ) (g : κ → β) (k : κ) : dGet k (ks.map fun x => (x, g x)) = if k ∈ ks then some (g k) else none := by
  induction ks with
  | nil => simp [dGet]
  | cons a t ih =>
    simp only [List.map_cons, dGet, ih, List.mem_cons]
    by_cases h : a = k
    · subst h; simp
    · have : ¬ k = a := fun e => h e.symm
      simp [h, this]

end

end Tablite
