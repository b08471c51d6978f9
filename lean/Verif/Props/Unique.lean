import Verif.Model.Unique
import Verif.Props.ColumnQuery
import Mathlib.Data.List.Dedup
import Mathlib.Data.List.Sort
/-!
# C105: the distinct values of a column
-/

namespace Tablite

variable {α : Type}

/-! ## specification -/

/-- contract of numpy's sort: the same values in ascending order; `same` means neither is smaller -/
structure SortsBy (srt : List α → Option (List α)) (same : α → α → Bool) (lt : α → α → Prop) : Prop where
  perm : ∀ l s, srt l = some s → s.Perm l
  sorted : ∀ l s, srt l = some s → s.Pairwise fun a b => ¬ lt b a
  comparable : ∀ l s, srt l = some s → ∀ a ∈ l, ∀ b ∈ l, (same a b = true ↔ ¬ lt a b ∧ ¬ lt b a)
  trans : ∀ a b c, lt a b → lt b c → lt a c

/-- contract of `multitype_set`: each value once, in some order -/
def SetOf (ord : List α → List α) : Prop := ∀ l, (ord l).Nodup ∧ ∀ v, v ∈ ord l ↔ v ∈ l

/-- `==` without NaN -/
structure Equality (same : α → α → Bool) : Prop where
  refl : ∀ a, same a a = true
  symm : ∀ a b, same a b = true → same b a = true
  trans : ∀ a b c, same a b = true → same b c = true → same a c = true

theorem runLengths_cover (same : α → α → Bool) (he : Equality same) (l : List α) : ∀ v ∈ l, ∃ w ∈ (runLengths same l).map (·.1), same w v = true := by
  induction l with
  | nil => simp
  | cons a t ih =>
    intro v hv
    simp only [runLengths]
    cases hr : runLengths same t with
    | nil =>
      rw [hr] at ih
      rcases List.mem_cons.1 hv with rfl | hv
      · exact ⟨v, by simp, he.refl _⟩
      · obtain ⟨w, hw, _⟩ := ih v hv; simp at hw
    | cons x r =>
      obtain ⟨b, n⟩ := x
      rw [hr] at ih
      dsimp only
      by_cases hs : same a b = true
      · rw [if_pos hs]
        rcases List.mem_cons.1 hv with rfl | hv
        · exact ⟨v, by simp, he.refl _⟩
        · obtain ⟨w, hw, hww⟩ := ih v hv
          simp only [List.map_cons, List.mem_cons] at hw
          rcases hw with rfl | hw
          · exact ⟨a, by simp, he.trans _ _ _ hs hww⟩
          · exact ⟨w, by simp [hw], hww⟩
      · rw [if_neg hs]
        rcases List.mem_cons.1 hv with rfl | hv
        · exact ⟨v, by simp, he.refl _⟩
        · obtain ⟨w, hw, hww⟩ := ih v hv
          exact ⟨w, List.mem_cons_of_mem _ hw, hww⟩

/-- the heads of the runs of an ascending list ascend strictly -/
theorem runLengths_ascending (same : α → α → Bool) (he : Equality same) (lt : α → α → Prop) (htr : ∀ a b c, lt a b → lt b c → lt a c) (l : List α) (hs : l.Pairwise fun a b => ¬ lt b a)
    (hc : ∀ a ∈ l, ∀ b ∈ l, (same a b = true ↔ ¬ lt a b ∧ ¬ lt b a)) : ((runLengths same l).map (·.1)).Pairwise lt := by
  classical
  induction l with
  | nil => simp [runLengths]
  | cons a t ih =>
    have ih' := ih hs.of_cons (fun x hx y hy => hc x (List.mem_cons_of_mem _ hx) y (List.mem_cons_of_mem _ hy))
    have hk := runLengths_keys same t
    have ha : ∀ x ∈ t, ¬ lt x a := (List.pairwise_cons.1 hs).1
    simp only [runLengths]
    cases hr : runLengths same t with
    | nil => simp
    | cons x r =>
      obtain ⟨b, n⟩ := x
      rw [hr] at ih' hk
      simp only [List.map_cons, List.pairwise_cons] at ih' hk
      have hb : b ∈ t := hk b (by simp)
      dsimp only
      by_cases hsm : same a b = true
      · rw [if_pos hsm]
        simp only [List.map_cons, List.pairwise_cons]
        refine ⟨fun y hy => ?_, ih'.2⟩
        have hby := ih'.1 y hy
        have hyt : y ∈ t := hk y (List.mem_cons_of_mem _ hy)
        refine Decidable.byContradiction fun hn => ?_
        have h1 := (hc a (by simp) y (List.mem_cons_of_mem _ hyt)).2 ⟨hn, ha y hyt⟩
        exact ((hc b (List.mem_cons_of_mem _ hb) y (List.mem_cons_of_mem _ hyt)).1 (he.trans _ _ _ (he.symm _ _ hsm) h1)).1 hby
      · rw [if_neg hsm]
        simp only [List.map_cons, List.pairwise_cons]
        have hab : lt a b := by
          refine Decidable.byContradiction fun hn => hsm ?_
          exact (hc a (by simp) b (List.mem_cons_of_mem _ hb)).2 ⟨hn, ha b hb⟩
        refine ⟨fun y hy => ?_, ih'⟩
        rcases List.mem_cons.1 hy with rfl | hy
        · exact hab
        · exact htr _ _ _ hab (ih'.1 y hy)

theorem pageUnique_mem (srt : List α → Option (List α)) (same : α → α → Bool) (ord : List α → List α) (lt : α → α → Prop) (hs : SortsBy srt same lt) (ho : SetOf ord)
    (p : List α) : ∀ w ∈ pageUnique srt same ord p, w ∈ p := by
  intro w hw
  unfold pageUnique at hw
  split at hw
  · rename_i s hsrt
    exact (hs.perm _ _ hsrt).mem_iff.1 (runLengths_keys same s w hw)
  · exact ((ho p).2 w).1 hw

theorem pageUnique_cover (srt : List α → Option (List α)) (same : α → α → Bool) (he : Equality same) (ord : List α → List α) (lt : α → α → Prop) (hs : SortsBy srt same lt)
    (ho : SetOf ord) (p : List α) : ∀ v ∈ p, ∃ w ∈ pageUnique srt same ord p, same w v = true := by
  intro v hv
  unfold pageUnique
  split
  · rename_i s hsrt
    exact runLengths_cover same he s v ((hs.perm _ _ hsrt).mem_iff.2 hv)
  · exact ⟨v, ((ho p).2 v).2 hv, he.refl v⟩

theorem pageUnique_nodup (srt : List α → Option (List α)) (same : α → α → Bool) (he : Equality same) (ord : List α → List α) (lt : α → α → Prop) (hs : SortsBy srt same lt)
    (ho : SetOf ord) (p : List α) : (pageUnique srt same ord p).Nodup := by
  unfold pageUnique
  split
  · rename_i s hsrt
    have hp := hs.perm _ _ hsrt
    have hc : ∀ a ∈ s, ∀ b ∈ s, (same a b = true ↔ ¬ lt a b ∧ ¬ lt b a) := fun a ha b hb => hs.comparable _ _ hsrt a (hp.mem_iff.1 ha) b (hp.mem_iff.1 hb)
    have := runLengths_ascending same he lt hs.trans s (hs.sorted _ _ hsrt) hc
    refine this.imp_of_mem ?_
    intro a b ha _ hlt hab
    subst hab
    have ha' := runLengths_keys same s a ha
    exact ((hc a ha' a ha').1 (he.refl a)).1 hlt
  · exact (ho p).1

theorem pageUnique_some (srt : List α → Option (List α)) (same : α → α → Bool) (ord : List α → List α) (p s : List α) (h : srt p = some s) :
    pageUnique srt same ord p = (runLengths same s).map (·.1) := by
  unfold pageUnique; rw [h]

/-- every value of the column is in the result up to `==`, and the result has only values of the column, none twice -/
theorem C105_values (srt : List α → Option (List α)) (same : α → α → Bool) (he : Equality same) (ord : List α → List α) (lt : α → α → Prop) (hs : SortsBy srt same lt) (ho : SetOf ord)
    (pages pgs : Pages α) (hset : ∀ p, p ∈ pgs ↔ p ∈ pages) (hne : pages ≠ []) :
    ∃ r, colUnique srt same ord pgs = .ok r ∧ r.Nodup ∧ (∀ w ∈ r, w ∈ colIter pages) ∧ ∀ v ∈ colIter pages, ∃ w ∈ r, same w v = true := by
  have hne' : pgs.isEmpty = false := by
    cases pages with
    | nil => exact absurd rfl hne
    | cons p _ =>
      cases pgs with
      | nil => exact absurd ((hset p).2 (by simp)) (by simp)
      | cons _ _ => rfl
  unfold colUnique
  rw [hne']
  refine ⟨_, rfl, pageUnique_nodup srt same he ord lt hs ho _, fun w hw => ?_, fun v hv => ?_⟩
  · have := pageUnique_mem srt same ord lt hs ho _ w hw
    obtain ⟨p, hp, hwp⟩ := List.mem_flatMap.1 this
    rw [colIter_eq]
    exact List.mem_flatten.2 ⟨p, (hset p).1 hp, pageUnique_mem srt same ord lt hs ho p w hwp⟩
  · rw [colIter_eq] at hv
    obtain ⟨p, hp, hvp⟩ := List.mem_flatten.1 hv
    obtain ⟨w, hw, hwv⟩ := pageUnique_cover srt same he ord lt hs ho p v hvp
    obtain ⟨x, hx, hxw⟩ := pageUnique_cover srt same he ord lt hs ho (pgs.flatMap (pageUnique srt same ord)) w (List.mem_flatMap.2 ⟨p, (hset p).2 hp, hw⟩)
    exact ⟨x, hx, he.trans _ _ _ hxw hwv⟩

/-- the full claim: each value, with its type, exactly once -/
def C105_statement : Prop := ∀ (α : Type) (srt : List α → Option (List α)) (same : α → α → Bool) (ord : List α → List α) (lt : α → α → Prop), Equality same → SortsBy srt same lt → SetOf ord →
  ∀ (pages pgs : Pages α), (∀ p, p ∈ pgs ↔ p ∈ pages) → ∃ r, colUnique srt same ord pgs = .ok r ∧ r.Nodup ∧ ∀ v, v ∈ r ↔ v ∈ colIter pages

/-- **C105**, partial: each value exactly once, for a column that has a page and no two values that are equal but of different types (`1`, `True`, `1.0`). -/
theorem C105_partial (srt : List α → Option (List α)) (same : α → α → Bool) (he : Equality same) (ord : List α → List α) (lt : α → α → Prop) (hs : SortsBy srt same lt) (ho : SetOf ord)
    (pages pgs : Pages α) (hset : ∀ p, p ∈ pgs ↔ p ∈ pages) (hne : pages ≠ []) (hf : ∀ a ∈ colIter pages, ∀ b ∈ colIter pages, same a b = true → a = b) :
    ∃ r, colUnique srt same ord pgs = .ok r ∧ r.Nodup ∧ ∀ v, v ∈ r ↔ v ∈ colIter pages := by
  obtain ⟨r, h1, h2, h3, h4⟩ := C105_values srt same he ord lt hs ho pages pgs hset hne
  refine ⟨r, h1, h2, fun v => ⟨h3 v, fun hv => ?_⟩⟩
  obtain ⟨w, hw, hwv⟩ := h4 v hv
  exact hf w (h3 w hw) v hv hwv ▸ hw

/-- values that can be sorted come in ascending order -/
theorem C105_ascending (srt : List α → Option (List α)) (same : α → α → Bool) (he : Equality same) (ord : List α → List α) (lt : α → α → Prop) (hs : SortsBy srt same lt) (ho : SetOf ord)
    (pages pgs : Pages α) (hset : ∀ p, p ∈ pgs ↔ p ∈ pages) (hsrt : ∀ l, (∀ v ∈ l, v ∈ colIter pages) → (srt l).isSome) (r : List α) (hr : colUnique srt same ord pgs = .ok r) :
    r.Pairwise lt := by
  unfold colUnique at hr
  split at hr
  · exact absurd hr (by simp)
  · injection hr with hr
    subst hr
    have hsub : ∀ v ∈ pgs.flatMap (pageUnique srt same ord), v ∈ colIter pages := by
      intro v hv
      obtain ⟨p, hp, hvp⟩ := List.mem_flatMap.1 hv
      rw [colIter_eq]
      exact List.mem_flatten.2 ⟨p, (hset p).1 hp, pageUnique_mem srt same ord lt hs ho p v hvp⟩
    obtain ⟨s, hsome⟩ := Option.isSome_iff_exists.1 (hsrt _ hsub)
    rw [pageUnique_some srt same ord _ s hsome]
    have hp := hs.perm _ _ hsome
    exact runLengths_ascending same he lt hs.trans s (hs.sorted _ _ hsome) fun a ha b hb => hs.comparable _ _ hsome a (hp.mem_iff.1 ha) b (hp.mem_iff.1 hb)

/-- so two equal values of different types are never both in the result -/
theorem C105_merges_fails (srt : List α → Option (List α)) (same : α → α → Bool) (he : Equality same) (ord : List α → List α) (lt : α → α → Prop) (hs : SortsBy srt same lt) (ho : SetOf ord)
    (pages pgs : Pages α) (hset : ∀ p, p ∈ pgs ↔ p ∈ pages) (hsrt : ∀ l, (∀ v ∈ l, v ∈ colIter pages) → (srt l).isSome) (r : List α) (hr : colUnique srt same ord pgs = .ok r)
    (a b : α) (ha : a ∈ colIter pages) (hb : b ∈ colIter pages) (hab : a ≠ b) (hsm : same a b = true) : ¬ (a ∈ r ∧ b ∈ r) := by
  rintro ⟨har, hbr⟩
  have hp := C105_ascending srt same he ord lt hs ho pages pgs hset hsrt r hr
  obtain ⟨s, hsome⟩ := Option.isSome_iff_exists.1 (hsrt [a, b] (by intro v hv; simp at hv; rcases hv with rfl | rfl <;> assumption))
  have hn := (hs.comparable _ _ hsome a (by simp) b (by simp)).1 hsm
  have : lt a b ∨ lt b a := by
    clear hr
    induction r with
    | nil => simp at har
    | cons x t ih =>
      rw [List.pairwise_cons] at hp
      rcases List.mem_cons.1 har with rfl | har'
      · rcases List.mem_cons.1 hbr with rfl | hbr'
        · exact absurd rfl hab
        · exact Or.inl (hp.1 b hbr')
      · rcases List.mem_cons.1 hbr with rfl | hbr'
        · exact Or.inr (hp.1 a har')
        · exact ih har' hbr' hp.2
  rcases this with h | h
  · exact hn.1 h
  · exact hn.2 h

/-- an empty column raises ValueError -/
theorem C105_empty_fails (srt : List α → Option (List α)) (same : α → α → Bool) (ord : List α → List α) : colUnique srt same ord [] = .error .value := rfl

theorem C105_fails : ¬ C105_statement := by
  intro h
  obtain ⟨r, hr, _⟩ := h Nat (fun _ => none) (· == ·) List.dedup (· < ·) ⟨by simp, by simp, by simp⟩
    ⟨by simp, by simp, by simp, fun a b c => Nat.lt_trans⟩ (fun l => ⟨l.nodup_dedup, fun v => List.mem_dedup⟩) [] [] (by simp)
  exact absurd hr (by simp [colUnique])

/-! ### a setup: `(false, n)` is the integer `n`, `(true, n)` is a truth value, `none` is None -/

/-- numpy's order of numbers and None -/
def uSort (l : List (Option (Bool × Nat))) : Option (List (Option (Bool × Nat))) :=
  if l.all Option.isSome then some (l.insertionSort fun a b => (a.elim 0 (·.2)) ≤ (b.elim 0 (·.2))) else none

/-- equality of Python -/
def uSame (a b : Option (Bool × Nat)) : Bool := a.map (·.2) == b.map (·.2)

/-- order of Python -/
def uLt (a b : Option (Bool × Nat)) : Prop := a.elim 0 (·.2) < b.elim 0 (·.2)

theorem uSort_ok : SortsBy uSort uSame uLt := by
  refine ⟨fun l s h => ?_, fun l s h => ?_, fun l s h a ha b hb => ?_, fun a b c h1 h2 => Nat.lt_trans h1 h2⟩
  · unfold uSort at h
    split at h
    · injection h with h; subst h; exact List.perm_insertionSort _ l
    · exact absurd h (by simp)
  · unfold uSort at h
    split at h
    · injection h with h; subst h
      have : IsTrans (Option (Bool × Nat)) fun a b => (a.elim 0 (·.2)) ≤ (b.elim 0 (·.2)) := ⟨fun a b c h1 h2 => Nat.le_trans h1 h2⟩
      have : Std.Total fun (a b : Option (Bool × Nat)) => (a.elim 0 (·.2)) ≤ (b.elim 0 (·.2)) := ⟨fun a b => Nat.le_total _ _⟩
      exact (List.pairwise_insertionSort _ l).imp fun h => Nat.not_lt.2 h
    · exact absurd h (by simp)
  · unfold uSort at h
    split at h
    · rename_i hall
      rw [List.all_eq_true] at hall
      have h1 := hall a ha; have h2 := hall b hb
      obtain ⟨x, rfl⟩ := Option.isSome_iff_exists.1 h1
      obtain ⟨y, rfl⟩ := Option.isSome_iff_exists.1 h2
      simp [uSame, uLt]
      omega
    · exact absurd h (by simp)

theorem uSame_ok : Equality uSame := by
  refine ⟨fun a => ?_, fun a b h => ?_, fun a b c h1 h2 => ?_⟩ <;> simp_all [uSame]

theorem dedup_set {β : Type} [DecidableEq β] : SetOf (List.dedup : List β → List β) := fun l => ⟨l.nodup_dedup, fun _ => List.mem_dedup⟩

/-- `[1, True]` has one distinct value, `[1, True, None]` has three; the pages decide too -/
theorem C105_layout_fails :
    colUnique uSort uSame List.dedup [[some (false, 1), some (true, 1)]] = .ok [some (false, 1)] ∧
    colUnique uSort uSame List.dedup [[some (false, 1), some (true, 1), none]] = .ok [some (false, 1), some (true, 1), none] ∧
    colUnique uSort uSame List.dedup [[some (false, 1), some (true, 1)], [none]] = .ok [some (false, 1), none] := by
  refine ⟨?_, ?_, ?_⟩ <;> decide +kernel

/-- the hypotheses of `C105_partial` hold of a column of two pages with None -/
example : ∃ r, colUnique uSort uSame List.dedup [[some (false, 3), some (false, 1)], [none, some (false, 3)]] = .ok r ∧ r.Nodup ∧
    ∀ v, v ∈ r ↔ v ∈ colIter [[some (false, 3), some (false, 1)], [none, some (false, 3)]] :=
  C105_partial uSort uSame uSame_ok List.dedup uLt uSort_ok dedup_set _ _ (fun _ => Iff.rfl) (by simp) (by decide)

/-- and those of `C105_merges_fails` of `[1, True]` -/
example (r : List (Option (Bool × Nat))) (hr : colUnique uSort uSame List.dedup [[some (false, 1), some (true, 1)]] = .ok r) : ¬ (some (false, 1) ∈ r ∧ some (true, 1) ∈ r) :=
  C105_merges_fails uSort uSame uSame_ok List.dedup uLt uSort_ok dedup_set _ _ (fun _ => Iff.rfl)
    (by
      intro l hl
      have : l.all Option.isSome = true := by
        rw [List.all_eq_true]
        intro v hv
        have := hl v hv
        rw [colIter_eq] at this
        simp at this
        rcases this with rfl | rfl <;> rfl
      simp [uSort, this]) r hr _ _ (by decide) (by decide) (by decide) (by decide)

end Tablite
