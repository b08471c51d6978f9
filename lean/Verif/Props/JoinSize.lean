import Verif.Props.TableShape
import Mathlib.Algebra.BigOperators.Group.Finset.Basic
/-!
# The number of rows of a join

It is the sum, over the keys, of the number of rows with the key in one table times that in the other (C111).
-/

namespace Tablite

/-- a sum over the entries of a list is a sum over its different entries, each as often as it occurs -/
theorem sum_firstOccs {β : Type} [DecidableEq β] (l : List β) (g : β → Nat) : (l.map g).sum = ((firstOccs l).map fun k => (l.filter fun x => decide (x = k)).length * g k).sum := by
  rw [Finset.sum_list_map_count, ← List.sum_toFinset _ (nodup_firstOccs l)]
  have : (firstOccs l).toFinset = l.toFinset := by
    ext a
    simp [mem_firstOccs]
  rw [this]
  apply Finset.sum_congr rfl
  intro k _
  rw [nsmul_eq_mul, Nat.cast_id, List.count, List.countP_eq_length_filter]
  simp only [beq_eq_decide]

variable {ν α : Type} [DecidableEq ν] [DecidableEq α]

theorem count_keys (nul : α) (r : Rel ν α) (keys : List ν) (k : List α) : ((r.rows.map fun row => keys.map (r.get nul row)).filter fun x => decide (x = k)).length = (r.withKey nul keys k).length := by
  unfold Rel.withKey
  rw [List.filter_map, List.length_map]
  rfl

/-- on lists of rows -/
theorem joined_length (nul : α) (r s : Rel ν α) (lk rk lc rc : List ν) :
    (r.joined nul s lk rk lc rc).length = ((r.keysOf nul lk).map fun k => (r.withKey nul lk k).length * (s.withKey nul rk k).length).sum := by
  unfold Rel.joined Rel.keysOf
  rw [List.length_flatMap]
  have e : (r.rows.map fun a => ((s.rows.filter fun b => decide (lk.map (r.get nul a) = rk.map (s.get nul b))).map (r.beside nul s lc rc a)).length) =
      (r.rows.map fun row => lk.map (r.get nul row)).map fun k => (s.withKey nul rk k).length := by
    rw [List.map_map]
    apply List.map_congr_left
    intro a _
    simp only [Function.comp, List.length_map, Rel.withKey]
    congr 1
    apply List.filter_congr
    intro b _
    exact decide_eq_decide.2 eq_comm
  rw [e, sum_firstOccs]
  congr 1
  apply List.map_congr_left
  intro k _
  rw [count_keys]

/-- **C111**, sizes: an inner join has, for each key, as many rows as there are pairs of rows with this key; a left join has one more for each row without a partner. -/
theorem C111_size {nul : α} {t u : Tbl ν α} {r s : Rel ν α} (ht : Shows nul t r) (hu : Shows nul u s) (hs : Solid u) (ps : Nat) (hps : 0 < ps) (mk : ν → Nat → ν) (hmk : ∀ d a b, mk d a = mk d b → a = b)
    (ord : List (List α) → List (List α)) (lk rk lc rc : List ν) (h : Rel.JoinArgs r s lk rk lc rc) :
    ∃ t' t'', tblJoin ps mk ord nul .inner t u lk rk lc rc = .ok t' ∧ tblJoin ps mk ord nul .left t u lk rk lc rc = .ok t'' ∧
      tblLen t' = ((r.keysOf nul lk).map fun k => (r.withKey nul lk k).length * (s.withKey nul rk k).length).sum ∧
      tblLen t'' = ((r.keysOf nul lk).map fun k => (r.withKey nul lk k).length * max 1 (s.withKey nul rk k).length).sum := by
  obtain ⟨t', R, e1, e2, e3⟩ := ht.inner hu ps hps mk hmk ord lk rk lc rc h
  obtain ⟨t'', R', f1, f2, f3⟩ := ht.left hu hs ps hps mk hmk ord lk rk lc rc h
  refine ⟨t', t'', e1, f1, ?_, ?_⟩
  · rw [tblLen_rect t' _ e3.2.2.1 e3.ne]
    dsimp only
    rw [e2.length_eq, joined_length]
  · rw [tblLen_rect t'' _ f3.2.2.1 f3.ne]
    dsimp only
    rw [f2.length_eq, Rel.leftJoined, List.length_append, List.length_map]
    unfold Rel.joined Rel.alone Rel.keysOf
    rw [List.length_flatMap]
    have e : ∀ k, ((r.rows.map fun row => lk.map (r.get nul row)).filter fun x => decide (x = k)).length = (r.withKey nul lk k).length := count_keys nul r lk
    simp only [← e]
    rw [← sum_firstOccs _ fun k => max 1 (s.withKey nul rk k).length, List.map_map]
    induction r.rows with
    | nil => rfl
    | cons a l ih =>
      rw [List.map_cons, List.map_cons, List.sum_cons, List.sum_cons, ← ih]
      have hw : (s.withKey nul rk (lk.map (r.get nul a))) = s.rows.filter fun b => decide (lk.map (r.get nul a) = rk.map (s.get nul b)) := by
        unfold Rel.withKey
        apply List.filter_congr
        intro b _
        exact decide_eq_decide.2 eq_comm
      simp only [Function.comp, hw, List.length_map]
      by_cases hp : (s.rows.all fun b => !decide (lk.map (r.get nul a) = rk.map (s.get nul b))) = true
      · have hnil : (s.rows.filter fun b => decide (lk.map (r.get nul a) = rk.map (s.get nul b))) = [] := by
          rw [List.filter_eq_nil_iff]
          rw [List.all_eq_true] at hp
          intro b hb
          simpa using hp b hb
        rw [List.filter_cons_of_pos (p := fun a => s.rows.all fun b => !decide (lk.map (r.get nul a) = rk.map (s.get nul b))) hp, hnil, List.length_cons]
        simp
        omega
      · have hne : (s.rows.filter fun b => decide (lk.map (r.get nul a) = rk.map (s.get nul b))) ≠ [] := by
          intro e
          apply hp
          rw [List.all_eq_true]
          intro b hb
          have := List.filter_eq_nil_iff.1 e b hb
          simpa using this
        have := List.length_pos_of_ne_nil hne
        rw [List.filter_cons_of_neg (p := fun a => s.rows.all fun b => !decide (lk.map (r.get nul a) = rk.map (s.get nul b))) hp, Nat.max_eq_right (by omega)]
        omega

/-- tables in different pages meet the conditions: one key has two rows on each side, another has no partner -/
example : ∃ t' t'', tblJoin 4 (fun d i => d * 100 + i) id 0 .inner [(1, [[5, 6], [5]])] [(1, [[5], [5]]), (3, [[7], [8]])] [1] [1] [1] [1, 3] = .ok t' ∧
    tblJoin 4 (fun d i => d * 100 + i) id 0 .left [(1, [[5, 6], [5]])] [(1, [[5], [5]]), (3, [[7], [8]])] [1] [1] [1] [1, 3] = .ok t'' ∧ tblLen t' = 4 ∧ tblLen t'' = 5 :=
  C111_size (r := ⟨[1], [[5], [6], [5]]⟩) (s := ⟨[1, 3], [[5, 7], [5, 8]]⟩) ((shows_iff ..).2 ⟨⟨by decide, by decide, by decide⟩, by decide⟩) ((shows_iff ..).2 ⟨⟨by decide, by decide, by decide⟩, by decide⟩)
    (by unfold Solid; decide) 4 (by omega) (fun d i => d * 100 + i) (fun d a b (e : d * 100 + a = d * 100 + b) => by omega) id [1] [1] [1] [1, 3] (by constructor <;> decide)

end Tablite
