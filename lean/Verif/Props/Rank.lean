import Mathlib.Data.List.Perm.Basic
import Mathlib.Data.List.Count
import Verif.Model.Rank
import Verif.Props.InferDate
/-!
# C41: type ranking, C67: pages with guessed types
-/

namespace Tablite

/-! ## insertion sort -/

theorem insertBack_perm {α : Type} (cmp : α → α → Bool) (v : α) (l : List α) : (insertBack cmp v l).Perm (v :: l) := by
  induction l with
  | nil => exact List.Perm.refl _
  | cons x xs ih =>
    rw [insertBack]
    by_cases h : cmp v x = true
    · rw [if_pos h]; exact (List.Perm.cons x ih).trans (List.Perm.swap v x xs)
    · rw [if_neg h]

theorem insertFold_perm {α : Type} (cmp : α → α → Bool) (l acc : List α) :
    (l.foldl (fun sorted v => insertBack cmp v sorted) acc).Perm (l ++ acc) := by
  induction l generalizing acc with
  | nil => exact List.Perm.refl _
  | cons v l ih =>
    rw [List.foldl_cons]
    refine (ih _).trans ?_
    refine ((insertBack_perm cmp v acc).append_left l).trans ?_
    rw [List.cons_append]
    exact List.perm_middle

/-- sorting permutes -/
theorem insertSort_perm {α : Type} (cmp : α → α → Bool) (l : List α) : (insertSort cmp l).Perm l := by
  unfold insertSort
  refine (List.reverse_perm _).trans ?_
  simpa using insertFold_perm cmp l []

theorem insertBack_sorted {α : Type} (key : α → Nat) (cmp : α → α → Bool) (hc : ∀ a b, cmp a b = decide (key a > key b)) (v : α) (l : List α)
    (h : l.Pairwise fun a b => key a ≤ key b) : (insertBack cmp v l).Pairwise fun a b => key a ≤ key b := by
  induction l with
  | nil => simp [insertBack]
  | cons x xs ih =>
    rw [List.pairwise_cons] at h
    rw [insertBack, hc]
    by_cases hk : key v > key x
    · rw [if_pos (by simpa using hk), List.pairwise_cons]
      refine ⟨?_, ih h.2⟩
      intro y hy
      rcases List.mem_cons.1 ((insertBack_perm cmp v xs).mem_iff.1 hy) with rfl | hy
      · omega
      · exact h.1 y hy
    · rw [if_neg (by simpa using hk), List.pairwise_cons, List.pairwise_cons]
      refine ⟨?_, h⟩
      intro y hy
      rcases List.mem_cons.1 hy with rfl | hy
      · omega
      · have := h.1 y hy; omega

/-- sorting orders by decreasing key -/
theorem insertSort_sorted {α : Type} (key : α → Nat) (cmp : α → α → Bool) (hc : ∀ a b, cmp a b = decide (key a > key b)) (l : List α) :
    (insertSort cmp l).Pairwise fun a b => key b ≤ key a := by
  unfold insertSort
  rw [List.pairwise_reverse]
  have : ∀ (l acc : List α), acc.Pairwise (fun a b => key a ≤ key b) → (l.foldl (fun sorted v => insertBack cmp v sorted) acc).Pairwise (fun a b => key a ≤ key b) := by
    intro l
    induction l with
    | nil => intro acc h; exact h
    | cons v l ih => intro acc h; exact ih _ (insertBack_sorted key cmp hc v acc h)
  exact this l [] List.Pairwise.nil

theorem insertBack_stable {α : Type} (key : α → Nat) (cmp : α → α → Bool) (hc : ∀ a b, cmp a b = decide (key a > key b)) (v : α) (l : List α) (k : Nat) :
    (insertBack cmp v l).filter (fun a => key a == k) = (if key v = k then [v] else []) ++ l.filter (fun a => key a == k) := by
  induction l with
  | nil => rw [insertBack]; by_cases h : key v = k <;> simp [h]
  | cons x xs ih =>
    rw [insertBack, hc]
    by_cases hk : key v > key x
    · rw [if_pos (by simpa using hk)]
      by_cases hx : key x = k
      · rw [List.filter_cons_of_pos (by simpa using hx), ih, if_neg (by omega), List.filter_cons_of_pos (by simpa using hx)]; rfl
      · rw [List.filter_cons_of_neg (by simpa using hx), ih, List.filter_cons_of_neg (by simpa using hx)]
    · rw [if_neg (by simpa using hk)]
      by_cases h : key v = k
      · rw [List.filter_cons_of_pos (by simpa using h), if_pos h]; rfl
      · rw [List.filter_cons_of_neg (by simpa using h), if_neg h]; rfl

/-- sorting keeps the order of elements with equal key -/
theorem insertSort_stable {α : Type} (key : α → Nat) (cmp : α → α → Bool) (hc : ∀ a b, cmp a b = decide (key a > key b)) (l : List α) (k : Nat) :
    (insertSort cmp l).filter (fun a => key a == k) = l.filter (fun a => key a == k) := by
  unfold insertSort
  have : ∀ (l acc : List α), ((l.foldl (fun sorted v => insertBack cmp v sorted) acc).filter (fun a => key a == k)).reverse =
      (acc.filter (fun a => key a == k)).reverse ++ l.filter (fun a => key a == k) := by
    intro l
    induction l with
    | nil => intro acc; simp
    | cons v l ih =>
      intro acc
      rw [List.foldl_cons, ih, insertBack_stable key cmp hc]
      by_cases h : key v = k
      · rw [if_pos h, List.filter_cons_of_pos (by simpa using h)]; simp
      · rw [if_neg h, List.filter_cons_of_neg (by simpa using h)]; simp
  rw [List.filter_reverse, this]
  simp

/-! ## the two orders -/

/-- weight of a type: its count, except that text comes after all other types that were seen -/
def rankKey (a : DType × Nat) : Nat := if a.1 = .string then (if a.2 > 0 then 1 else 0) else 2 * a.2

theorem cmpStringless_key (a b : DType × Nat) : cmpStringless a b = decide (rankKey a > rankKey b) := by
  unfold cmpStringless cmpDtypes rankKey
  by_cases ha : a.1 = .string <;> by_cases hb : b.1 = .string <;> by_cases ha0 : a.2 > 0 <;> by_cases hb0 : b.2 > 0 <;>
    simp_all <;> omega

theorem cmpDtypes_key (a b : DType × Nat) : cmpDtypes a b = decide (a.2 > b.2) := rfl

/-- the order kept by the ranking: types by decreasing count, text after everything that was seen and before everything that was not -/
def RankOrder (a b : DType × Nat) : Prop :=
  (a.1 ≠ .string → b.1 ≠ .string → b.2 ≤ a.2) ∧ (a.1 = .string → b.1 ≠ .string → b.2 = 0) ∧ (b.1 = .string → a.1 ≠ .string → a.2 = 0 → b.2 = 0)

theorem rankOrder_key (a b : DType × Nat) (h : rankKey b ≤ rankKey a) : RankOrder a b := by
  unfold rankKey at h
  refine ⟨?_, ?_, ?_⟩
  · intro h1 h2
    rw [if_neg h1, if_neg h2] at h; omega
  · intro h1 h2
    rw [if_pos h1, if_neg h2] at h
    by_cases ha : a.2 > 0
    · rw [if_pos ha] at h; omega
    · rw [if_neg ha] at h; omega
  · intro h1 h2 h3
    rw [if_pos h1, if_neg h2] at h
    by_cases hb : b.2 > 0
    · rw [if_pos hb] at h; omega
    · omega

/-! ## counting -/

theorem countFirst_spec {inf : DType → Except Err InfVal} {r : Rank} {t : DType} {r' : Rank} (h : countFirst inf r = .ok (t, r')) :
    ∃ pre n post, r = pre ++ (t, n) :: post ∧ r' = pre ++ (t, n + 1) :: post ∧ (∃ v, inf t = .ok v) ∧ ∀ p ∈ pre, inf p.1 = .error .value := by
  induction r generalizing t r' with
  | nil => cases h
  | cons a r ih =>
    obtain ⟨u, n⟩ := a
    rw [countFirst] at h
    cases hu : inf u with
    | ok v =>
      rw [hu] at h
      cases h
      exact ⟨[], n, r, rfl, rfl, ⟨v, hu⟩, by simp⟩
    | error e =>
      rw [hu] at h
      cases e <;> try (cases h)
      obtain ⟨⟨t', r1⟩, h1, h2⟩ := ebind_ok h
      cases h2
      obtain ⟨pre, m, post, h3, h4, h5, h6⟩ := ih h1
      refine ⟨(u, n) :: pre, m, post, by rw [h3]; rfl, by rw [h4]; rfl, h5, ?_⟩
      intro p hp
      rcases List.mem_cons.1 hp with rfl | hp
      · exact hu
      · exact h6 p hp

/-- the invariant of a ranking after values were counted under the types `dts` -/
structure RankInv (dts : List DType) (r : Rank) : Prop where
  types : (r.map Prod.fst).Perm DType.all
  counts : ∀ p ∈ r, p.2 = dts.count p.1
  order : r.Pairwise RankOrder

theorem updateRank_inv {inf : DType → Except Err InfVal} {dts : List DType} {r : Rank} (hr : RankInv dts r) {t : DType} {r' : Rank}
    (h : updateRank inf r = .ok (t, r')) : RankInv (dts ++ [t]) r' ∧ (∃ v, inf t = .ok v) ∧
      ∃ pre n post, r = pre ++ (t, n) :: post ∧ ∀ p ∈ pre, inf p.1 = .error .value := by
  obtain ⟨⟨t', r1⟩, h1, h2⟩ := ebind_ok h
  cases h2
  obtain ⟨pre, n, post, h3, h4, h5, h6⟩ := countFirst_spec h1
  refine ⟨⟨?_, ?_, ?_⟩, h5, pre, n, post, h3, h6⟩
  · show ((insertSort cmpStringless r1).map Prod.fst).Perm _
    refine ((insertSort_perm cmpStringless r1).map Prod.fst).trans ?_
    have : r1.map Prod.fst = r.map Prod.fst := by rw [h3, h4]; simp
    rw [this]; exact hr.types
  · intro p hp
    have hp : p ∈ r1 := (insertSort_perm cmpStringless r1).mem_iff.1 hp
    have hnd : (r.map Prod.fst).Nodup := (hr.types.nodup_iff).2 (by decide)
    rw [List.count_append]
    rw [h4] at hp
    rw [h3, List.map_append, List.map_cons, List.nodup_append] at hnd
    obtain ⟨_, hnd2, hnd3⟩ := hnd
    rw [List.nodup_cons] at hnd2
    rcases List.mem_append.1 hp with hp | hp
    · have e : t' ≠ p.1 := fun e => hnd3 p.1 (List.mem_map_of_mem hp) t' List.mem_cons_self e.symm
      rw [hr.counts p (by rw [h3]; exact List.mem_append_left _ hp), List.count_singleton, if_neg (by simpa using e)]; rfl
    · rcases List.mem_cons.1 hp with rfl | hp
      · have := hr.counts (t', n) (by rw [h3]; simp)
        rw [List.count_singleton, if_pos (by simp)]
        dsimp only at this ⊢
        omega
      · have e : t' ≠ p.1 := by
          intro e
          exact hnd2.1 (List.mem_map.2 ⟨p, hp, e.symm⟩)
        rw [hr.counts p (by rw [h3]; exact List.mem_append_right _ (List.mem_cons_of_mem _ hp)), List.count_singleton, if_neg (by simpa using e)]; rfl
  · exact (insertSort_sorted rankKey cmpStringless cmpStringless_key r1).imp fun {a b} h => rankOrder_key a b h

theorem newRank_inv : RankInv [] newRank := by
  refine ⟨?_, ?_, ?_⟩
  · rw [newRank, List.map_map]
    exact List.Perm.of_eq (by decide)
  · intro p hp
    obtain ⟨t, _, rfl⟩ := List.mem_map.1 hp
    rfl
  · rw [newRank]
    rw [List.pairwise_map]
    exact List.pairwise_of_forall (fun a b => ⟨fun _ _ => Nat.le_refl _, fun _ _ => rfl, fun _ _ _ => rfl⟩)

/-- longest text among the values counted as text -/
def stringWidth (w : Nat) : List DType → List (List Char) → Nat
  | t :: ts, s :: ss => stringWidth (if t = .string then max s.length w else w) ts ss
  | _, _ => w

theorem rankLoop_inv (inf : DType → List Char → Except Err InfVal) (values : List (List Char)) :
    ∀ (dts : List DType) (r : Rank) (w : Nat) (r' : Rank) (w' : Nat), RankInv dts r → rankLoop inf r w values = .ok (r', w') →
      ∃ ts : List DType, List.Forall₂ (fun t s => ∃ v, inf t s = .ok v) ts values ∧ RankInv (dts ++ ts) r' ∧ w' = stringWidth w ts values := by
  induction values with
  | nil =>
    intro dts r w r' w' hr h
    rw [rankLoop] at h
    cases h
    exact ⟨[], .nil, by simpa using hr, rfl⟩
  | cons s values ih =>
    intro dts r w r' w' hr h
    rw [rankLoop] at h
    obtain ⟨⟨t, r1⟩, h1, h2⟩ := ebind_ok h
    obtain ⟨hi, ha, _⟩ := updateRank_inv hr h1
    obtain ⟨ts, hts, hr', hw⟩ := ih _ _ _ _ _ hi h2
    exact ⟨t :: ts, .cons ha hts, by simpa using hr', hw⟩

/-- **C41** whatever the readers of the single types do: after any number of values the ranking holds every type once; each value was counted under one type
that accepts it, and the count of a type is the number of values counted under it; the types are in order of their counts, text behind all types that were
seen. -/
theorem C41_ranking (inf : DType → List Char → Except Err InfVal) (values : List (List Char)) (w w' : Nat) (r : Rank) (h : rankLoop inf newRank w values = .ok (r, w')) :
    ∃ ts : List DType, List.Forall₂ (fun t s => ∃ v, inf t s = .ok v) ts values ∧ (r.map Prod.fst).Perm DType.all ∧ (∀ p ∈ r, p.2 = ts.count p.1) ∧
      (r.map Prod.snd).sum = values.length ∧ r.Pairwise RankOrder := by
  obtain ⟨ts, h1, h2, hw⟩ := rankLoop_inv inf values [] newRank w r w' newRank_inv h
  rw [List.nil_append] at h2
  refine ⟨ts, h1, h2.types, h2.counts, ?_, h2.order⟩
  have e1 : r.map Prod.snd = (r.map Prod.fst).map fun t => ts.count t := by
    rw [List.map_map]
    exact List.map_congr_left fun p hp => h2.counts p hp
  have e2 : ((r.map Prod.fst).map fun t => ts.count t).sum = (DType.all.map fun t => ts.count t).sum := (h2.types.map _).sum_eq
  have e3 : (DType.all.map fun t => ts.count t).sum = ts.length := by
    clear h1 h2 h e1 e2 hw
    induction ts with
    | nil => rfl
    | cons t ts ih =>
      have : ∀ l : List DType, (l.map fun u => (t :: ts).count u).sum = (l.map fun u => ts.count u).sum + l.count t := by
        intro l
        induction l with
        | nil => rfl
        | cons u l ihl =>
          rw [List.map_cons, List.sum_cons, ihl, List.map_cons, List.sum_cons, List.count_cons, List.count_cons]
          by_cases e : t = u
          · subst e; simp; omega
          · have e' : ¬ u = t := fun h => e h.symm
            simp [e, e']; omega
      rw [this, ih, List.length_cons]
      have : DType.all.count t = 1 := by cases t <;> decide
      omega
  rw [e1, e2, e3, h1.length_eq]

/-- **C41** the type under which a value is counted is the first in the ranking at that time that accepts it -/
theorem C41_first (inf : DType → Except Err InfVal) (dts : List DType) (r r' : Rank) (hr : RankInv dts r) (t : DType) (h : updateRank inf r = .ok (t, r')) :
    (∃ v, inf t = .ok v) ∧ ∃ pre n post, r = pre ++ (t, n) :: post ∧ ∀ p ∈ pre, inf p.1 = .error .value :=
  ⟨(updateRank_inv hr h).2.1, (updateRank_inv hr h).2.2⟩

theorem countFirst_total (inf : DType → Except Err InfVal) (he : ∀ t e, inf t = .error e → e = .value) (r : Rank) (t : DType) (ht : t ∈ r.map Prod.fst)
    (ha : ∃ v, inf t = .ok v) : ∃ x, countFirst inf r = .ok x := by
  induction r with
  | nil => cases ht
  | cons a r ih =>
    obtain ⟨u, n⟩ := a
    rw [countFirst]
    cases hu : inf u with
    | ok v => exact ⟨_, rfl⟩
    | error e =>
      have := he u e hu
      subst this
      have ht' : t ∈ r.map Prod.fst := by
        rcases List.mem_cons.1 ht with h | h
        · obtain ⟨v, ha⟩ := ha
          have h : t = u := h
          subst h
          rw [ha] at hu; cases hu
        · exact h
      obtain ⟨x, hx⟩ := ih ht'
      exact ⟨(x.1, (u, n) :: x.2), by dsimp only; rw [hx]; rfl⟩

theorem rankLoop_total (inf : DType → List Char → Except Err InfVal) (values : List (List Char)) (he : ∀ s ∈ values, ∀ t e, inf t s = .error e → e = .value)
    (hs : ∀ s ∈ values, ∃ v, inf .string s = .ok v) : ∀ (dts : List DType) (r : Rank) (w : Nat), RankInv dts r → ∃ x, rankLoop inf r w values = .ok x := by
  induction values with
  | nil => intro dts r w _; exact ⟨_, rfl⟩
  | cons s values ih =>
    intro dts r w hr
    obtain ⟨x, hx⟩ := countFirst_total (fun t => inf t s) (he s List.mem_cons_self) r .string (hr.types.mem_iff.2 (by decide)) (hs s List.mem_cons_self)
    have hu : updateRank (fun t => inf t s) r = .ok (x.1, sortRanks true x.2) := by unfold updateRank; rw [hx]; rfl
    rw [rankLoop, hu]
    exact ih (fun s' h => he s' (List.mem_cons_of_mem _ h)) (fun s' h => hs s' (List.mem_cons_of_mem _ h)) _ _ _ (updateRank_inv hr hu).1

/-- **C41** ranking succeeds for all values if no reader raises anything but a ValueError -/
theorem C41_total (inf : DType → List Char → Except Err InfVal) (values : List (List Char)) (he : ∀ s ∈ values, ∀ t e, inf t s = .error e → e = .value)
    (hs : ∀ s ∈ values, ∃ v, inf .string s = .ok v) (w : Nat) : ∃ x, rankLoop inf newRank w values = .ok x :=
  rankLoop_total inf values he hs [] newRank w newRank_inv

/-- a reader of floats for the examples: none -/
def noFloat : List Char → Option Rat := fun _ => none

example : (rankLoop (inferAs noFloat) newRank 1 ["12".toList, "x".toList, "2024-01-31".toList, "1,000".toList]).toOption.map (fun x => x.1.filter (·.2 > 0)) =
    some [(.intSimple, 1), (.string, 3)] := by decide +kernel

/-- the reader of times does raise another exception, which ends the ranking: text such as "08:00-12" cannot be imported with guessed types -/
theorem C41_total_fails : rankLoop (inferAs noFloat) newRank 1 ["08:00-12".toList] = .error .other := by decide +kernel

end Tablite
