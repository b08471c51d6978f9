import Verif.Props.TableShape
import Verif.Props.UnpivotLaws
/-!
# Aggregates joined back to the rows

The inner join of a table with its group-by on the keys has every row once, beside the aggregates of its group (C146).
-/

namespace Tablite

variable {ν α : Type} [DecidableEq ν] [DecidableEq α]

/-- on lists of rows -/
theorem joined_grouped {φ : Type} (nul : α) (nm : φ → ν → ν) (r : Rel ν α) (hr : r.WF) (keys : List ν) (functions : List (ν × φ)) (agg : ν × φ → List α → α) (hg : (r.grouped nul nm keys functions agg).WF) :
    r.joined nul (r.grouped nul nm keys functions agg) keys keys r.names (functions.map fun f => nm f.2 f.1) =
      r.rows.map fun a => a ++ functions.map fun f => agg f (keys.map (r.get nul a)) := by
  have hrow : ∀ k ∈ r.keysOf nul keys, keys.map ((r.grouped nul nm keys functions agg).get nul (k ++ functions.map fun f => agg f k)) = k ∧
      (functions.map fun f => nm f.2 f.1).map ((r.grouped nul nm keys functions agg).get nul (k ++ functions.map fun f => agg f k)) = functions.map fun f => agg f k := by
    intro k hk
    have hlen : k.length = keys.length := by
      obtain ⟨row, -, rfl⟩ := List.mem_map.1 (mem_firstOccs.1 hk)
      simp
    have := Rel.row_get (nul := nul) hg (row := k ++ functions.map fun f => agg f k) (List.mem_map.2 ⟨k, hk, rfl⟩)
    rw [show (r.grouped nul nm keys functions agg).names = keys ++ functions.map fun f => nm f.2 f.1 from rfl, List.map_append] at this
    exact List.append_inj this (by rw [List.length_map, hlen])
  unfold Rel.joined
  refine Eq.trans ?_ (List.map_eq_flatMap (f := fun a => a ++ functions.map fun f => agg f (keys.map (r.get nul a))) (l := r.rows)).symm
  apply List.flatMap_congr
  intro a ha
  have hka : keys.map (r.get nul a) ∈ r.keysOf nul keys := mem_firstOccs.2 (List.mem_map.2 ⟨a, ha, rfl⟩)
  rw [show (r.grouped nul nm keys functions agg).rows = (r.keysOf nul keys).map fun k => k ++ functions.map fun f => agg f k from rfl, List.filter_map,
    filter_nodup_eq (r.keysOf nul keys) (nodup_firstOccs _) _ hka _ (by
      intro k hk
      simp only [Function.comp]
      rw [(hrow k hk).1]
      exact decide_eq_decide.2 eq_comm)]
  simp only [List.map_cons, List.map_nil, Rel.beside, List.cons.injEq, and_true]
  rw [Rel.row_get hr ha, (hrow _ hka).2]

/-- **C146** partial: group-by, then the inner join of the table with it on the keys: every row of the table once, beside the aggregates of the rows with its keys.  Missing: columns that are not cut at the same places, where
group-by loses rows (`C146_fails`). -/
theorem C146_partial {σ φ : Type} {nul : α} {t : Tbl ν α} {r : Rel ν α} (h : Shows nul t r) (ha : Aligned t) (init : φ → σ) (upd : φ → σ → α → Except Err σ) (val : φ → σ → Except Err α) (nm : φ → ν → ν) (ps : Nat)
    (hps : 0 < ps) (keys : List ν) (functions : List (ν × φ)) (hin : ∀ a ∈ keys ++ functions.map (·.1), a ∈ r.names) (hk : keys ≠ []) (hf : functions ≠ [])
    (hnd : (keys ++ functions.map fun f => nm f.2 f.1).Nodup) (agg : ν × φ → List α → α)
    (hagg : ∀ f ∈ functions, ∀ k ∈ r.keysOf nul keys, aggOf init upd val f.2 ((r.withKey nul keys k).map fun row => r.get nul row f.1) = .ok (agg f k))
    (mk : ν → Nat → ν) (hmk : ∀ d a b, mk d a = mk d b → a = b) (ord : List (List α) → List (List α)) :
    ∃ g t' R, Tablite.groupby nul init upd val nm ps t keys functions = .ok g ∧ tblJoin ps mk ord nul .inner t g keys keys r.names (functions.map fun f => nm f.2 f.1) = .ok t' ∧ tblRows nul t' = .ok R ∧
      R.Perm (r.rows.map fun a => a ++ functions.map fun f => agg f (keys.map (r.get nul a))) := by
  obtain ⟨g, g1, g2, -, -⟩ := h.groupby ha init upd val nm ps hps keys functions hin (by simp [hk]) hnd agg hagg
  obtain ⟨t', rows, e1, e2, e3⟩ := h.inner g2 ps hps mk hmk ord keys keys r.names (functions.map fun f => nm f.2 f.1) {
    lkIn := fun a ha => hin a (List.mem_append_left _ ha)
    rkIn := fun a ha => List.mem_append_left _ ha
    len := rfl
    key := hk
    lcIn := fun _ ha => ha
    rcIn := fun a ha => List.mem_append_right _ ha
    lcne := h.1.1
    rcne := by simpa using hf
    lcnd := h.1.2.1 }
  refine ⟨g, t', rows, g1, e1, e3.2.2.2, ?_⟩
  rwa [joined_grouped nul nm r h.1 keys functions agg g2.1] at e2

/-- counts of the rows, beside the rows -/
def countBeside (ps : Nat) (t : Tbl Nat Nat) (keys : List Nat) (x : Nat) : Except Err (List (List Nat)) := do
  let g ← Tablite.groupby 0 (fun _ : Unit => 0) (fun _ s _ => .ok (s + 1)) (fun _ s => .ok s) (fun _ x => x + 1000) ps t keys [(x, ())]
  let t' ← tblJoin ps (fun d i => d * 100 + i) id 0 .inner t g keys keys (t.map (·.1)) [x + 1000]
  tblRows 0 t'

/-- the full claim, for counts: also for columns cut at different places -/
def C146_statement : Prop :=
  ∀ (ps : Nat) (t : Tbl Nat Nat) (r : Rel Nat Nat) (keys : List Nat) (x : Nat), 0 < ps → Shows 0 t r → (∀ a ∈ keys ++ [x], a ∈ r.names) → keys ≠ [] → keys.Nodup → x + 1000 ∉ keys →
    ∃ R, countBeside ps t keys x = .ok R ∧ R.Perm (r.rows.map fun a => a ++ [(r.withKey 0 keys (keys.map (r.get 0 a))).length])

/-- group-by drops a key of a table whose columns are cut at different places, and with it the row -/
theorem C146_fails : ¬ C146_statement := by
  intro h
  obtain ⟨R, h1, h2⟩ := h 10 [(1, [[1, 2], [3]]), (2, [[10], [20, 30]])] ⟨[1, 2], [[1, 10], [2, 20], [3, 30]]⟩ [1] 2 (by decide) ((shows_iff ..).2 ⟨⟨by decide, by decide, by decide⟩, by decide⟩) (by decide) (by decide)
    (by decide) (by decide)
  have : (countBeside 10 [(1, [[1, 2], [3]]), (2, [[10], [20, 30]])] [1] 2).map List.length = .ok 2 := by decide +kernel
  rw [h1] at this
  have hl := h2.length_eq
  simp only [Except.map, Except.ok.injEq] at this
  rw [this] at hl
  simp at hl

/-- a table in pages cut at the same places meets the conditions -/
example : ∃ g t' R, Tablite.groupby 0 (fun _ : Unit => 0) (fun _ s _ => .ok (s + 1)) (fun _ s => .ok s) (fun _ x => x + 1000) 10 [(1, [[1, 2], [1]]), (2, [[10, 20], [30]])] [1] [(2, ())] = .ok g ∧
    tblJoin 10 (fun d i => d * 100 + i) id 0 .inner [(1, [[1, 2], [1]]), (2, [[10, 20], [30]])] g [1] [1] [1, 2] [1002] = .ok t' ∧ tblRows 0 t' = .ok R ∧ R.Perm [[1, 10, 2], [2, 20, 1], [1, 30, 2]] :=
  C146_partial (r := ⟨[1, 2], [[1, 10], [2, 20], [1, 30]]⟩) ((shows_iff ..).2 ⟨⟨by decide, by decide, by decide⟩, by decide⟩) ⟨[2, 1], by decide⟩ (fun _ : Unit => 0) (fun _ s _ => .ok (s + 1)) (fun _ s => .ok s)
    (fun _ x => x + 1000) 10 (by decide) [1] [(2, ())] (by decide) (by decide) (by decide) (by decide) (fun _ k => if k = [1] then 2 else 1) (by decide) (fun d i => d * 100 + i)
    (fun d a b (e : d * 100 + a = d * 100 + b) => by omega) id

/-! ## the group-by of another table -/

theorem flatMap_filter_map {β γ : Type} (l : List β) (p : β → Bool) (f : β → γ) : (l.flatMap fun a => if p a then [f a] else []) = (l.filter p).map f := by
  induction l with
  | nil => rfl
  | cons a l ih =>
    rw [List.flatMap_cons, ih]
    cases e : p a with
    | true => rw [List.filter_cons_of_pos e]; simp
    | false => rw [List.filter_cons_of_neg (by simp [e])]; simp

/-- on lists of rows -/
theorem joined_other_grouped {φ : Type} (nul : α) (nm : φ → ν → ν) (r s : Rel ν α) (hr : r.WF) (lk rk : List ν) (functions : List (ν × φ)) (agg : ν × φ → List α → α)
    (hg : (s.grouped nul nm rk functions agg).WF) :
    r.joined nul (s.grouped nul nm rk functions agg) lk rk r.names (rk ++ functions.map fun f => nm f.2 f.1) =
      (r.rows.filter fun a => decide (s.withKey nul rk (lk.map (r.get nul a)) ≠ [])).map fun a => a ++ (lk.map (r.get nul a) ++ functions.map fun f => agg f (lk.map (r.get nul a))) := by
  have hrow : ∀ k ∈ s.keysOf nul rk, rk.map ((s.grouped nul nm rk functions agg).get nul (k ++ functions.map fun f => agg f k)) = k ∧
      (rk ++ functions.map fun f => nm f.2 f.1).map ((s.grouped nul nm rk functions agg).get nul (k ++ functions.map fun f => agg f k)) = k ++ functions.map fun f => agg f k := by
    intro k hk
    have hlen : k.length = rk.length := by
      obtain ⟨row, -, rfl⟩ := List.mem_map.1 (mem_firstOccs.1 hk)
      simp
    have := Rel.row_get (nul := nul) hg (row := k ++ functions.map fun f => agg f k) (List.mem_map.2 ⟨k, hk, rfl⟩)
    rw [show (s.grouped nul nm rk functions agg).names = rk ++ functions.map fun f => nm f.2 f.1 from rfl] at this
    refine ⟨?_, this⟩
    rw [List.map_append] at this
    exact (List.append_inj this (by rw [List.length_map, hlen])).1
  rw [← flatMap_filter_map]
  unfold Rel.joined
  apply List.flatMap_congr
  intro a ha
  have hmem : lk.map (r.get nul a) ∈ s.keysOf nul rk ↔ s.withKey nul rk (lk.map (r.get nul a)) ≠ [] := by
    unfold Rel.keysOf Rel.withKey
    rw [mem_firstOccs, List.mem_map, ne_eq, List.filter_eq_nil_iff]
    push Not
    simp
  rw [show (s.grouped nul nm rk functions agg).rows = (s.keysOf nul rk).map fun k => k ++ functions.map fun f => agg f k from rfl, List.filter_map]
  have hq : ∀ k ∈ s.keysOf nul rk, ((fun b => decide (lk.map (r.get nul a) = rk.map ((s.grouped nul nm rk functions agg).get nul b))) ∘ fun k => k ++ functions.map fun f => agg f k) k = decide (k = lk.map (r.get nul a)) := by
    intro k hk
    simp only [Function.comp]
    rw [(hrow k hk).1]
    exact decide_eq_decide.2 eq_comm
  by_cases hka : lk.map (r.get nul a) ∈ s.keysOf nul rk
  · rw [filter_nodup_eq (s.keysOf nul rk) (nodup_firstOccs _) _ hka _ hq, if_pos (decide_eq_true (hmem.1 hka))]
    simp only [List.map_cons, List.map_nil, Rel.beside, List.cons.injEq, and_true]
    rw [Rel.row_get hr ha, (hrow _ hka).2]
  · have hnil : (s.keysOf nul rk).filter ((fun b => decide (lk.map (r.get nul a) = rk.map ((s.grouped nul nm rk functions agg).get nul b))) ∘ fun k => k ++ functions.map fun f => agg f k) = [] := by
      rw [List.filter_eq_nil_iff]
      intro k hk e
      rw [hq k hk] at e
      exact hka (of_decide_eq_true e ▸ hk)
    rw [hnil, if_neg (by simpa using fun e => hka (hmem.2 e))]
    rfl

/-- **C147** partial: the inner join with the group-by of another table on its keys: the rows that have a partner there, each once however many partners it has, beside its keys and the aggregates of its partners.  Without functions this is
the semi-join.  Missing: columns of the other table that are not cut at the same places, where group-by loses rows or raises (`C146_fails`, `C147_fails`). -/
theorem C147_partial {σ φ : Type} {nul : α} {t u : Tbl ν α} {r s : Rel ν α} (h : Shows nul t r) (hu : Shows nul u s) (ha : Aligned u) (init : φ → σ) (upd : φ → σ → α → Except Err σ) (val : φ → σ → Except Err α) (nm : φ → ν → ν)
    (ps : Nat) (hps : 0 < ps) (lk rk : List ν) (functions : List (ν × φ)) (hlk : ∀ a ∈ lk, a ∈ r.names) (hin : ∀ a ∈ rk ++ functions.map (·.1), a ∈ s.names) (hlen : lk.length = rk.length) (hk : lk ≠ [])
    (hnd : (rk ++ functions.map fun f => nm f.2 f.1).Nodup) (agg : ν × φ → List α → α)
    (hagg : ∀ f ∈ functions, ∀ k ∈ s.keysOf nul rk, aggOf init upd val f.2 ((s.withKey nul rk k).map fun row => s.get nul row f.1) = .ok (agg f k))
    (mk : ν → Nat → ν) (hmk : ∀ d a b, mk d a = mk d b → a = b) (ord : List (List α) → List (List α)) :
    ∃ g t' R, Tablite.groupby nul init upd val nm ps u rk functions = .ok g ∧ tblJoin ps mk ord nul .inner t g lk rk r.names (rk ++ functions.map fun f => nm f.2 f.1) = .ok t' ∧ tblRows nul t' = .ok R ∧
      R.Perm ((r.rows.filter fun a => decide (s.withKey nul rk (lk.map (r.get nul a)) ≠ [])).map fun a => a ++ (lk.map (r.get nul a) ++ functions.map fun f => agg f (lk.map (r.get nul a)))) := by
  have hrk : rk ≠ [] := fun e => hk (List.length_eq_zero_iff.1 (by rw [hlen, e]; rfl))
  obtain ⟨g, g1, g2, -, -⟩ := hu.groupby ha init upd val nm ps hps rk functions hin (by simp [hrk]) hnd agg hagg
  obtain ⟨t', rows, e1, e2, e3⟩ := h.inner g2 ps hps mk hmk ord lk rk r.names (rk ++ functions.map fun f => nm f.2 f.1) {
    lkIn := hlk
    rkIn := fun a ha => List.mem_append_left _ ha
    len := hlen
    key := hk
    lcIn := fun _ ha => ha
    rcIn := fun a ha => ha
    lcne := h.1.1
    rcne := by simp [hrk]
    lcnd := h.1.2.1 }
  refine ⟨g, t', rows, g1, e1, e3.2.2.2, ?_⟩
  rwa [joined_other_grouped nul nm r s h.1 lk rk functions agg g2.1] at e2

/-- a semi-join of tables in pages: the first row has two partners, the second has none -/
example : ∃ g t' R, Tablite.groupby 0 (fun _ : Unit => 0) (fun _ s _ => .ok (s + 1)) (fun _ s => .ok s) (fun _ x => x + 1000) 10 [(2, [[7, 5], [5]])] [2] [] = .ok g ∧
    tblJoin 10 (fun d i => d * 100 + i) id 0 .inner [(1, [[5], [6]])] g [1] [2] [1] [2] = .ok t' ∧ tblRows 0 t' = .ok R ∧ R.Perm [[5, 5]] :=
  C147_partial (r := ⟨[1], [[5], [6]]⟩) (s := ⟨[2], [[7], [5], [5]]⟩) ((shows_iff ..).2 ⟨⟨by decide, by decide, by decide⟩, by decide⟩) ((shows_iff ..).2 ⟨⟨by decide, by decide, by decide⟩, by decide⟩) ⟨[2, 1], by decide⟩
    (fun _ : Unit => 0) (fun _ s _ => .ok (s + 1)) (fun _ s => .ok s) (fun _ x => x + 1000) 10 (by decide) [1] [2] [] (by decide) (by decide) (by decide) (by decide) (by decide) (fun _ _ => 0) (by decide) (fun d i => d * 100 + i)
    (fun d a b (e : d * 100 + a = d * 100 + b) => by omega) id

/-- the semi-join by a group-by without functions -/
def semiJoin (ps : Nat) (t u : Tbl Nat Nat) (lk rk : List Nat) : Except Err (List (List Nat)) := do
  let g ← Tablite.groupby 0 (fun _ : Unit => 0) (fun _ s _ => .ok (s + 1)) (fun _ s => .ok s) (fun _ x => x + 1000) ps u rk []
  let t' ← tblJoin ps (fun d i => d * 100 + i) id 0 .inner t g lk rk (t.map (·.1)) rk
  tblRows 0 t'

/-- the full claim, for the semi-join: also for columns cut at different places -/
def C147_statement : Prop :=
  ∀ (ps : Nat) (t u : Tbl Nat Nat) (r s : Rel Nat Nat) (lk rk : List Nat), 0 < ps → Shows 0 t r → Shows 0 u s → (∀ a ∈ lk, a ∈ r.names) → (∀ a ∈ rk, a ∈ s.names) → lk.length = rk.length → lk ≠ [] → rk.Nodup →
    ∃ R, semiJoin ps t u lk rk = .ok R ∧ R.Perm ((r.rows.filter fun a => decide (s.withKey 0 rk (lk.map (r.get 0 a)) ≠ [])).map fun a => a ++ lk.map (r.get 0 a))

/-- group-by raises on a table whose key columns are cut at different places -/
theorem C147_fails : ¬ C147_statement := by
  intro h
  obtain ⟨R, h1, h2⟩ := h 10 [(1, [[2]]), (2, [[20]])] [(1, [[1, 2], [3]]), (2, [[10], [20, 30]])] ⟨[1, 2], [[2, 20]]⟩ ⟨[1, 2], [[1, 10], [2, 20], [3, 30]]⟩ [1, 2] [1, 2] (by decide)
    ((shows_iff ..).2 ⟨⟨by decide, by decide, by decide⟩, by decide⟩) ((shows_iff ..).2 ⟨⟨by decide, by decide, by decide⟩, by decide⟩) (by decide) (by decide) (by decide) (by decide) (by decide)
  have : (semiJoin 10 [(1, [[2]]), (2, [[20]])] [(1, [[1, 2], [3]]), (2, [[10], [20, 30]])] [1, 2] [1, 2]).toOption = none := by decide +kernel
  rw [h1] at this
  cases this

end Tablite
