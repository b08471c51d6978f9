import Verif.Props.TableShape
/-!
# A left join and the rows without a partner

Filtering a left join for None in a column of the right table takes it apart into the rows without a partner and the inner join (C145).
-/

namespace Tablite

variable {ν α : Type} [DecidableEq ν] [DecidableEq α]

/-- the value of a row of a join in a column that comes from the right table -/
theorem get_right (nul : α) (ln rn : List ν) (hnd : (ln ++ rn).Nodup) (rows : List (List α)) (a b : List α) (ha : a.length = ln.length) (k : Nat) (hk : k < rn.length) :
    (⟨ln ++ rn, rows⟩ : Rel ν α).get nul (a ++ b) rn[k] = b.getD k nul := by
  unfold Rel.get
  have e : (ln ++ rn).idxOf rn[k] = ln.length + k := by
    have : rn[k] = (ln ++ rn)[ln.length + k]'(by simp; exact hk) := by
      rw [List.getElem_append_right (by omega)]
      simp
    rw [this, List.Nodup.idxOf_getElem hnd]
  dsimp only
  rw [e, List.getD_eq_getElem?_getD, List.getElem?_append_right (by omega), ha, Nat.add_sub_cancel_left, List.getD_eq_getElem?_getD]

/-- **C145**: the left join, filtered for None in a column of the right table in which there is no None: the rows that pass are those without a partner, the others are the inner join, up to their order. -/
theorem C145_anti_join {κ : Type} {nul : α} {t u : Tbl ν α} {r s : Rel ν α} (ht : Shows nul t r) (hu : Shows nul u s) (hs : Solid u) (ps : Nat) (hps : 0 < ps) (mk : ν → Nat → ν) (hmk : ∀ d a b, mk d a = mk d b → a = b)
    (ord : List (List α) → List (List α)) (lk rk lc rc : List ν) (h : Rel.JoinArgs r s lk rk lc rc) (k : Nat) (hk : k < rc.length) (y : ν) (hy : (rightNames mk lc rc)[k]? = some y)
    (hn : ∀ b ∈ s.rows, s.get nul b rc[k] ≠ nul) (cmp : κ → α → α → Bool) (eq : κ) (heq : ∀ v, cmp eq v nul = decide (v = nul)) :
    ∃ t' p f P F, tblJoin ps mk ord nul .left t u lk rk lc rc = .ok t' ∧ tblFilter nul cmp ps true t' [⟨.col y, eq, .val nul⟩] = .ok (p, f) ∧ tblRows nul p = .ok P ∧ tblRows nul f = .ok F ∧
      P.Perm ((r.alone nul s lk rk).map fun a => lc.map (r.get nul a) ++ rc.map fun _ => nul) ∧ F.Perm (r.joined nul s lk rk lc rc) := by
  obtain ⟨t', rows, h1, h2, h3⟩ := ht.left hu hs ps hps mk hmk ord lk rk lc rc h
  have hlen := rightNames_length mk lc rc
  obtain ⟨hk', ey⟩ := List.getElem?_eq_some_iff.1 hy
  have hnd : (lc ++ rightNames mk lc rc).Nodup := h3.1.2.1
  have hym : y ∈ lc ++ rightNames mk lc rc := List.mem_append_right _ (ey ▸ List.getElem_mem hk')
  obtain ⟨p, f, e1, e2, e3⟩ := C29_filter_partial nul cmp ps hps true t' _ h3.2.2.1 h3.ne [⟨.col y, eq, .val nul⟩] ⟨_, List.mem_singleton_self _, y, .inl rfl⟩ (by
    intro e he z hz
    rw [List.mem_singleton] at he
    subst he
    rcases hz with hz | hz
    · cases hz
      rw [h3.2.1]
      exact hym
    · cases hz)
  have hp := h3.filter (fun row => (⟨lc ++ rightNames mk lc rc, rows⟩ : Rel ν α).holds nul cmp true [⟨.col y, eq, .val nul⟩] row == true) _ (fun i _ => by rw [h3.holds, beq_true]) e2
  have hf := h3.filter (fun row => (⟨lc ++ rightNames mk lc rc, rows⟩ : Rel ν α).holds nul cmp true [⟨.col y, eq, .val nul⟩] row == false) _ (fun i _ => by rw [h3.holds, beq_false]) e3
  have hholds : ∀ a b : List α, a.length = lc.length → (⟨lc ++ rightNames mk lc rc, rows⟩ : Rel ν α).holds nul cmp true [⟨.col y, eq, .val nul⟩] (a ++ b) = decide (b.getD k nul = nul) := by
    intro a b ha
    simp only [Rel.holds, if_true, List.all_cons, List.all_nil, Bool.and_true, Rel.operand]
    rw [heq, ← ey, get_right nul lc _ hnd rows a b ha k hk']
  have hin : ∀ row ∈ r.joined nul s lk rk lc rc, (⟨lc ++ rightNames mk lc rc, rows⟩ : Rel ν α).holds nul cmp true [⟨.col y, eq, .val nul⟩] row = false := by
    intro row hrow
    obtain ⟨a, -, hrow⟩ := List.mem_flatMap.1 hrow
    obtain ⟨b, hb, rfl⟩ := List.mem_map.1 hrow
    rw [Rel.beside, hholds _ _ (by simp), decide_eq_false_iff_not]
    rw [List.getD_eq_getElem?_getD, List.getElem?_map, List.getElem?_eq_getElem hk, Option.map_some, Option.getD_some]
    exact hn b (List.mem_filter.1 hb).1
  have hout : ∀ row ∈ (r.alone nul s lk rk).map (fun a => lc.map (r.get nul a) ++ rc.map fun _ => nul), (⟨lc ++ rightNames mk lc rc, rows⟩ : Rel ν α).holds nul cmp true [⟨.col y, eq, .val nul⟩] row = true := by
    intro row hrow
    obtain ⟨a, -, rfl⟩ := List.mem_map.1 hrow
    rw [hholds _ _ (by simp), decide_eq_true_iff, List.getD_eq_getElem?_getD, List.getElem?_map, List.getElem?_eq_getElem hk, Option.map_some, Option.getD_some]
  refine ⟨t', p, f, _, _, h1, e1, hp.2.2.2, hf.2.2.2, ?_, ?_⟩
  · refine (h2.filter _).trans ?_
    unfold Rel.leftJoined
    rw [List.filter_append, List.filter_eq_nil_iff.2 fun row hrow => by simp [hin row hrow], List.filter_eq_self.2 fun row hrow => by simp [hout row hrow], List.nil_append]
  · refine (h2.filter _).trans ?_
    unfold Rel.leftJoined
    rw [List.filter_append, List.filter_eq_self.2 fun row hrow => by simp [hin row hrow], List.filter_eq_nil_iff.2 fun row hrow => by simp [hout row hrow], List.append_nil]

/-- **C145**, exact: if the column may hold None, the rows that do not pass are still rows of the inner join, and all of them exactly if no row of the inner join has None there. -/
theorem C145_exact {κ : Type} {nul : α} {t u : Tbl ν α} {r s : Rel ν α} (ht : Shows nul t r) (hu : Shows nul u s) (hs : Solid u) (ps : Nat) (hps : 0 < ps) (mk : ν → Nat → ν) (hmk : ∀ d a b, mk d a = mk d b → a = b)
    (ord : List (List α) → List (List α)) (lk rk lc rc : List ν) (h : Rel.JoinArgs r s lk rk lc rc) (k : Nat) (hk : k < rc.length) (y : ν) (hy : (rightNames mk lc rc)[k]? = some y)
    (cmp : κ → α → α → Bool) (eq : κ) (heq : ∀ v, cmp eq v nul = decide (v = nul)) :
    ∃ t' p f P F, tblJoin ps mk ord nul .left t u lk rk lc rc = .ok t' ∧ tblFilter nul cmp ps true t' [⟨.col y, eq, .val nul⟩] = .ok (p, f) ∧ tblRows nul p = .ok P ∧ tblRows nul f = .ok F ∧
      (∀ row ∈ F, row ∈ r.joined nul s lk rk lc rc) ∧ (F.Perm (r.joined nul s lk rk lc rc) ↔
        ∀ a ∈ r.rows, ∀ b ∈ s.rows, lk.map (r.get nul a) = rk.map (s.get nul b) → s.get nul b rc[k] ≠ nul) := by
  obtain ⟨t', rows, h1, h2, h3⟩ := ht.left hu hs ps hps mk hmk ord lk rk lc rc h
  have hlen := rightNames_length mk lc rc
  obtain ⟨hk', ey⟩ := List.getElem?_eq_some_iff.1 hy
  have hnd : (lc ++ rightNames mk lc rc).Nodup := h3.1.2.1
  have hym : y ∈ lc ++ rightNames mk lc rc := List.mem_append_right _ (ey ▸ List.getElem_mem hk')
  obtain ⟨p, f, e1, e2, e3⟩ := C29_filter_partial nul cmp ps hps true t' _ h3.2.2.1 h3.ne [⟨.col y, eq, .val nul⟩] ⟨_, List.mem_singleton_self _, y, .inl rfl⟩ (by
    intro e he z hz
    rw [List.mem_singleton] at he
    subst he
    rcases hz with hz | hz
    · cases hz
      rw [h3.2.1]
      exact hym
    · cases hz)
  have hp := h3.filter (fun row => (⟨lc ++ rightNames mk lc rc, rows⟩ : Rel ν α).holds nul cmp true [⟨.col y, eq, .val nul⟩] row == true) _ (fun i _ => by rw [h3.holds, beq_true]) e2
  have hf := h3.filter (fun row => (⟨lc ++ rightNames mk lc rc, rows⟩ : Rel ν α).holds nul cmp true [⟨.col y, eq, .val nul⟩] row == false) _ (fun i _ => by rw [h3.holds, beq_false]) e3
  have hholds : ∀ a b : List α, a.length = lc.length → (⟨lc ++ rightNames mk lc rc, rows⟩ : Rel ν α).holds nul cmp true [⟨.col y, eq, .val nul⟩] (a ++ b) = decide (b.getD k nul = nul) := by
    intro a b ha
    simp only [Rel.holds, if_true, List.all_cons, List.all_nil, Bool.and_true, Rel.operand]
    rw [heq, ← ey, get_right nul lc _ hnd rows a b ha k hk']
  have hF : (rows.filter fun row => (⟨lc ++ rightNames mk lc rc, rows⟩ : Rel ν α).holds nul cmp true [⟨.col y, eq, .val nul⟩] row == false).Perm
      ((r.joined nul s lk rk lc rc).filter fun row => (⟨lc ++ rightNames mk lc rc, rows⟩ : Rel ν α).holds nul cmp true [⟨.col y, eq, .val nul⟩] row == false) := by
    refine (h2.filter _).trans ?_
    unfold Rel.leftJoined
    have hnil : ((r.alone nul s lk rk).map fun a => lc.map (r.get nul a) ++ rc.map fun _ => nul).filter
        (fun row => (⟨lc ++ rightNames mk lc rc, rows⟩ : Rel ν α).holds nul cmp true [⟨.col y, eq, .val nul⟩] row == false) = [] := by
      rw [List.filter_eq_nil_iff]
      intro row hrow
      obtain ⟨a, -, rfl⟩ := List.mem_map.1 hrow
      rw [hholds _ _ (by simp), List.getD_eq_getElem?_getD, List.getElem?_map, List.getElem?_eq_getElem hk, Option.map_some, Option.getD_some]
      simp
    rw [List.filter_append, hnil, List.append_nil]
  have hb : ∀ a b, (⟨lc ++ rightNames mk lc rc, rows⟩ : Rel ν α).holds nul cmp true [⟨.col y, eq, .val nul⟩] (r.beside nul s lc rc a b) = decide (s.get nul b rc[k] = nul) := by
    intro a b
    rw [Rel.beside, hholds _ _ (by simp), List.getD_eq_getElem?_getD, List.getElem?_map, List.getElem?_eq_getElem hk, Option.map_some, Option.getD_some]
  refine ⟨t', p, f, _, _, h1, e1, hp.2.2.2, hf.2.2.2, fun row hrow => (List.mem_filter.1 (hF.subset hrow)).1, ?_⟩
  have hiff : ((r.joined nul s lk rk lc rc).filter fun row => (⟨lc ++ rightNames mk lc rc, rows⟩ : Rel ν α).holds nul cmp true [⟨.col y, eq, .val nul⟩] row == false) = r.joined nul s lk rk lc rc ↔
      ∀ a ∈ r.rows, ∀ b ∈ s.rows, lk.map (r.get nul a) = rk.map (s.get nul b) → s.get nul b rc[k] ≠ nul := by
    rw [List.filter_eq_self]
    constructor
    · intro g a ha b hb' e
      have := g (r.beside nul s lc rc a b) (List.mem_flatMap.2 ⟨a, ha, List.mem_map.2 ⟨b, List.mem_filter.2 ⟨hb', decide_eq_true e⟩, rfl⟩⟩)
      rw [hb] at this
      simpa using this
    · intro g row hrow
      obtain ⟨a, ha, hrow⟩ := List.mem_flatMap.1 hrow
      obtain ⟨b, hb', rfl⟩ := List.mem_map.1 hrow
      obtain ⟨b1, b2⟩ := List.mem_filter.1 hb'
      rw [hb]
      simpa using g a ha b b1 (of_decide_eq_true b2)
  rw [← hiff]
  constructor
  · intro g
    exact List.filter_sublist.eq_of_length (hF.symm.trans g).length_eq
  · intro g
    exact hF.trans (by rw [g])

/-- tables in different pages meet the conditions: one row has a partner, the other has none -/
example : ∃ t' p f P F, tblJoin 4 (fun d i => d * 100 + i) id 0 .left [(1, [[5, 6]])] [(1, [[5], [7]]), (3, [[7], [8]])] [1] [1] [1] [1, 3] = .ok t' ∧
    tblFilter 0 (fun (_ : Unit) a b => decide (a = b)) 4 true t' [⟨.col 3, (), .val 0⟩] = .ok (p, f) ∧ tblRows 0 p = .ok P ∧ tblRows 0 f = .ok F ∧ P.Perm [[6, 0, 0]] ∧ F.Perm [[5, 5, 7]] :=
  C145_anti_join (r := ⟨[1], [[5], [6]]⟩) (s := ⟨[1, 3], [[5, 7], [7, 8]]⟩) ((shows_iff ..).2 ⟨⟨by decide, by decide, by decide⟩, by decide⟩) ((shows_iff ..).2 ⟨⟨by decide, by decide, by decide⟩, by decide⟩)
    (by unfold Solid; decide) 4 (by omega) (fun d i => d * 100 + i) (fun d a b (e : d * 100 + a = d * 100 + b) => by omega) id [1] [1] [1] [1, 3] (by constructor <;> decide) 1 (by decide) 3 (by decide) (by decide)
    (fun _ a b => decide (a = b)) () (fun _ => rfl)

end Tablite
