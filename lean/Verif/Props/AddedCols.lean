import Verif.Props.BuildGroup
import Verif.Props.Lookup
import Verif.Props.Reshape
import Verif.Props.Sheet
import Verif.Props.LookupExact
import Verif.Props.ExprFilter
import Verif.Props.Nearest
import Verif.Props.ImportScript
import Verif.Props.PageLayout
/-!
# C134: grouping a table with a computed column

`lookup`, `merge` and imputation by carrying values forward keep the columns of the table as they are and add columns, or replace columns, that are cut into full pages.  A table that is cut otherwise - stacked,
filtered, extended by rows - can be grouped before, and loses rows after.
-/

namespace Tablite

/-! ## pages of the computed columns -/

section
variable {ν α : Type} [DecidableEq ν]

/-- the columns of the result are columns of the table, or cut into full pages (spec vocabulary) -/
def Computed (ps n : Nat) (t t' : Tbl ν α) : Prop := ∀ c ∈ t', c ∈ t ∨ c.2.map List.length = layoutOf ps n

/-! ## carry forward -/

theorem carryLoop_length (missing : α → Bool) (store : Except Err α) : ∀ (last : Option α) (l out : List α), carryLoop missing store last l = .ok out → out.length = l.length
  | _, [], out, h => by cases h; rfl
  | last, v :: rest, out, h => by
    unfold carryLoop at h
    split at h
    · split at h
      · obtain ⟨r, hr, h⟩ := ebind_ok h
        cases h
        simp [carryLoop_length missing store _ rest r hr]
      · obtain ⟨w, _, h⟩ := ebind_ok h
        obtain ⟨r, hr, h⟩ := ebind_ok h
        cases h
        simp [carryLoop_length missing store _ rest r hr]
    · obtain ⟨r, hr, h⟩ := ebind_ok h
      cases h
      simp [carryLoop_length missing store _ rest r hr]

theorem carryCol_layout (ps : Nat) (missing : α → Bool) (store : List α → Except Err α) (p q : Pages α) (h : carryCol ps missing store p = .ok q) : q.map List.length = layoutOf ps (colLen p) := by
  unfold carryCol at h
  rw [getSlice_all] at h
  obtain ⟨d, hd, h⟩ := ebind_ok h
  cases hd
  obtain ⟨out, ho, h⟩ := ebind_ok h
  cases h
  rw [paginate_layout, carryLoop_length _ _ _ _ _ ho, colIter_eq, colLen_eq]

theorem imputeCarry_rel (ps : Nat) (missing : α → Bool) (store : List α → Except Err α) (t t' : Tbl ν α) (targets : List ν) (ht : TblWF t) (h : imputeCarry ps missing store t (.inr targets) = .ok t') :
    List.Forall₂ (fun c c' => c'.1 = c.1 ∧ if c.1 ∈ targets then c'.2.map List.length = layoutOf ps (colLen c.2) else c'.2 = c.2) t t' := by
  unfold imputeCarry at h
  dsimp only at h
  split at h
  · rw [carryForward_eq ps missing store t targets ht] at h
    refine (mapM_rel h).imp ?_
    intro c c' hc
    obtain ⟨q, hq, hc⟩ := ebind_ok hc
    cases hc
    refine ⟨rfl, ?_⟩
    split
    · rename_i hx
      rw [if_pos hx] at hq
      exact carryCol_layout ps missing store _ _ hq
    · rename_i hx
      rw [if_neg hx] at hq
      cases hq
      rfl
  · cases h

/-! ## merge -/

theorem whereLoop_layout (ps : Nat) (hps : 1 < ps) (crit : List Bool) (l r q : Pages α) (hl : colLen l = crit.length) (hr : colLen r = crit.length) (h : whereLoop ps crit l r = .ok q) (hlen : colLen q = crit.length) :
    q.map List.length = layoutOf ps crit.length := by
  by_cases hn : crit.length ≤ ps
  · unfold whereLoop at h
    rw [pageSteps_small ps _ hn] at h
    obtain ⟨q', h1, h⟩ := ebind_ok h
    cases h
    obtain ⟨lv, _, h1⟩ := ebind_ok h1
    obtain ⟨rv, _, h1⟩ := ebind_ok h1
    obtain ⟨v, _, h1⟩ := ebind_ok h1
    cases h1
    simp only [extend, List.nil_append] at hlen ⊢
    rw [paginate_layout]
    rw [colLen_eq, paginate_flatten (by omega)] at hlen
    rw [hlen]
  · rw [C63_raises ps hps crit l r (by omega) hl hr] at h
    cases h


theorem mem_dUpd {β : Type} (x : ν) (p : β) (i : β) (d : List (ν × β)) (c : ν × β) (h : c ∈ dUpd i x (fun _ => p) d) : c ∈ d ∨ c = (x, p) := by
  induction d with
  | nil =>
    rcases List.mem_cons.1 h with rfl | h
    · exact .inr rfl
    · cases h
  | cons e d ih =>
    unfold dUpd at h
    split at h
    · rename_i he
      rcases List.mem_cons.1 h with rfl | h
      · rw [he]; exact .inr rfl
      · exact .inl (List.mem_cons_of_mem _ h)
    · rcases List.mem_cons.1 h with rfl | h
      · exact .inl List.mem_cons_self
      · rcases ih h with h | h
        · exact .inl (List.mem_cons_of_mem _ h)
        · exact .inr h

theorem dGet_tblDel (t t' : Tbl ν α) (x a : ν) (h : tblDel t x = .ok t') : dGet a t' = if a = x then none else dGet a t := by
  unfold tblDel at h
  split at h
  · cases h
    rw [dGet_filter_key (fun y => decide (y ≠ x))]
    by_cases e : a = x <;> simp [e]
  · cases h

theorem mem_tblDel (t t' : Tbl ν α) (x : ν) (h : tblDel t x = .ok t') (c : ν × Pages α) (hc : c ∈ t') : c ∈ t := by
  unfold tblDel at h
  split at h
  · cases h
    exact (List.mem_filter.1 hc).1
  · cases h

theorem dGet_tblSet (t : Tbl ν α) (x a : ν) (p : Pages α) : dGet a (tblSet t x p) = if a = x then some p else dGet a t := by
  unfold tblSet
  rw [dGet_upd]

theorem tblSet_twice (t : Tbl ν α) (uq : ν) (col : Pages α) (hnew : uq ∉ t.map (·.1)) : tblSet (tblSet t uq []) uq col = t ++ [(uq, col)] := by
  unfold tblSet
  rw [dUpd_new _ _ _ _ hnew]
  induction t with
  | nil => simp [dUpd]
  | cons d v ih =>
    simp only [List.map_cons, List.mem_cons, not_or] at hnew
    simp only [dUpd, List.cons_append]
    rw [if_neg (fun h => hnew.1 h.symm), ih hnew.2]

/-- what a merge makes of a table -/
theorem tblWhere_pages (ps : Nat) (mk : ν → Nat → ν) (hmk : ∀ d a b, mk d a = mk d b → a = b) (t t' : Tbl ν α) (crit : List Bool) (left right new : ν) (hl : left ∈ t.map (·.1)) (hr : right ∈ t.map (·.1)) (hlr : left ≠ right)
    (h : tblWhere ps mk t crit left right new = .ok t') :
    ∃ l r col, dGet left t = some l ∧ dGet right t = some r ∧ whereLoop ps crit l r = .ok col ∧ (∀ c ∈ t', c ∈ t ∨ c.2 = col) ∧ dGet new t' = some col ∧
      ∀ x ∈ t.map (·.1), x ≠ new → x ≠ left → x ≠ right → dGet x t' = dGet x t := by
  unfold tblWhere at h
  dsimp only at h
  have hnew := (C47_unique_name mk new (t.map (·.1)) (hmk new)).1
  have hkeep := (C47_unique_name mk new (t.map (·.1)) (hmk new)).2.1
  generalize uniqueName mk new (t.map (·.1)) = uq at hnew hkeep h
  obtain ⟨l, hl'⟩ := Option.isSome_iff_exists.1 ((dGet_isSome left t).2 hl)
  obtain ⟨r, hr'⟩ := Option.isSome_iff_exists.1 ((dGet_isSome right t).2 hr)
  have n1 : left ≠ uq := fun e => hnew (e ▸ hl)
  have n2 : right ≠ uq := fun e => hnew (e ▸ hr)
  rw [dGet_tblSet, if_neg n1, dGet_tblSet, if_neg n2, hl', hr'] at h
  dsimp only at h
  obtain ⟨col, hcol, h⟩ := ebind_ok h
  have hset := tblSet_twice t uq col hnew
  rw [hset] at h
  have hmem : ∀ y, ∀ c ∈ tblSet (t ++ [(uq, col)]) y col, c ∈ t ∨ c.2 = col := by
    intro y c hc
    rcases mem_dUpd _ _ _ _ _ hc with hc | rfl
    · rcases List.mem_append.1 hc with hc | hc
      · exact .inl hc
      · exact .inr (by rw [List.mem_singleton.1 hc])
    · exact .inr rfl
  have hold : ∀ x ∈ t.map (·.1), dGet x (t ++ [(uq, col)]) = dGet x t := by
    intro x hx
    obtain ⟨p, hp⟩ := Option.isSome_iff_exists.1 ((dGet_isSome x t).2 hx)
    rw [dGet_app, hp]
    rfl
  have hfresh : ∀ x ∈ t.map (·.1), x ≠ uq := fun x hx e => hnew (e ▸ hx)
  refine ⟨l, r, col, hl', hr', hcol, ?_⟩
  split at h
  · rename_i e
    subst e
    obtain ⟨t1, h1, h⟩ := ebind_ok h
    refine ⟨fun c hc => hmem _ c (mem_tblDel _ _ _ h1 c (mem_tblDel _ _ _ h c hc)), ?_, ?_⟩
    · rw [dGet_tblDel _ _ _ _ h, if_neg hlr.symm, dGet_tblDel _ _ _ _ h1, if_neg n2, dGet_tblSet, if_pos rfl]
    · intro x hx a1 a2 a3
      rw [dGet_tblDel _ _ _ _ h, if_neg a2, dGet_tblDel _ _ _ _ h1, if_neg (hfresh x hx), dGet_tblSet, if_neg a1, hold x hx]
  · split at h
    · rename_i e
      subst e
      obtain ⟨t1, h1, h⟩ := ebind_ok h
      refine ⟨fun c hc => hmem _ c (mem_tblDel _ _ _ h1 c (mem_tblDel _ _ _ h c hc)), ?_, ?_⟩
      · rw [dGet_tblDel _ _ _ _ h, if_neg hlr, dGet_tblDel _ _ _ _ h1, if_neg n1, dGet_tblSet, if_pos rfl]
      · intro x hx a1 a2 a3
        rw [dGet_tblDel _ _ _ _ h, if_neg a3, dGet_tblDel _ _ _ _ h1, if_neg (hfresh x hx), dGet_tblSet, if_neg a1, hold x hx]
    · rename_i e1 e2
      obtain ⟨t1, h1, h⟩ := ebind_ok h
      refine ⟨fun c hc => hmem _ c (mem_tblDel _ _ _ h1 c (mem_tblDel _ _ _ h c hc)), ?_, ?_⟩
      · rw [dGet_tblDel _ _ _ _ h, if_neg e1, dGet_tblDel _ _ _ _ h1, if_neg e2, dGet_tblSet, if_pos rfl]
      · intro x hx a1 a2 a3
        rw [dGet_tblDel _ _ _ _ h, if_neg a3, dGet_tblDel _ _ _ _ h1, if_neg a2, dGet_tblSet, if_neg a1, hold x hx]

end

/-! ## C134 -/

section
variable {ν : Type} [DecidableEq ν]

/-- counting one column by another is right exactly when the two are cut alike -/
theorem groups_pair (sqrt : Rat → Rat) (nm : Acc → ν → ν) (ps : Nat) (hps : 0 < ps) (t : Tbl ν GVal) (n : Nat) (ht : Rect t n) (x k : ν) (p q : Pages GVal) (hp : dGet x t = some p) (hq : dGet k t = some q)
    (hp' : ∀ a ∈ p, a ≠ []) (hq' : ∀ a ∈ q, a ≠ []) (hxk : x ≠ k) (hnm : x ≠ nm .count k) :
    GroupsOk .none accInit accUpdate (accValue sqrt) nm ps t n [x] [(k, .count)] ↔ p.map List.length = q.map List.length := by
  rw [C33_exact sqrt nm ps hps _ n ht [x] k (by
    intro a ha
    simp only [List.cons_append, List.nil_append, List.mem_cons, List.not_mem_nil, or_false] at ha
    rcases ha with rfl | rfl
    · exact (dGet_isSome _ t).1 (by rw [hp]; rfl)
    · exact (dGet_isSome _ t).1 (by rw [hq]; rfl)) (by simpa using hnm)]
  have hused : usedCols t [x] [(k, Acc.count)] = [p, q] := by
    have hnn : neededNames [x] [(k, Acc.count)] = [x, k] := by simp [neededNames, Ne.symm hxk]
    unfold usedCols
    rw [hnn]
    simp [hp, hq]
  have hpos : ∀ (r : Pages GVal), (∀ a ∈ r, a ≠ []) → ∀ a ∈ r.map List.length, 0 < a := by
    intro r hr a ha
    obtain ⟨s, hs, rfl⟩ := List.mem_map.1 ha
    exact List.length_pos_of_ne_nil (hr s hs)
  have e1 : (p.map List.length).sum = n := by rw [← List.length_flatten, ← colLen_eq]; exact ht _ (dGet_some_mem _ _ _ hp)
  have e2 : (q.map List.length).sum = n := by rw [← List.length_flatten, ← colLen_eq]; exact ht _ (dGet_some_mem _ _ _ hq)
  unfold cutRows
  rw [hused, cutLayout_two]
  have := min_sum_eq _ _ (hpos p hp') (hpos q hq') (by rw [e1, e2])
  rw [e1] at this
  exact this

theorem solid_of_layout {α : Type} (ps n : Nat) (hps : 0 < ps) (q : Pages α) (h : q.map List.length = layoutOf ps n) : ∀ a ∈ q, a ≠ [] := by
  intro a ha e
  have := (layoutOf_pos ps n hps).1 a.length (by rw [← h]; exact List.mem_map.2 ⟨a, ha, rfl⟩)
  rw [e] at this
  simp at this

/-- **C134** (exact), carry forward: counting a column whose gaps were filled by a column that was not is right exactly when the latter is cut into full pages -/
theorem C134_exact (sqrt : Rat → Rat) (nm : Acc → ν → ν) (ps : Nat) (hps : 0 < ps) (missing : GVal → Bool) (store : List GVal → Except Err GVal) (t t' : Tbl ν GVal) (n : Nat) (hwf : TblWF t) (ht : Rect t n) (hs : Solid t)
    (targets : List ν) (h : imputeCarry ps missing store t (.inr targets) = .ok t') (x k : ν) (p : Pages GVal) (hp : dGet x t = some p) (hx : x ∉ targets) (hk : k ∈ targets) (hnm : x ≠ nm .count k) :
    Rect t' n ∧ (GroupsOk .none accInit accUpdate (accValue sqrt) nm ps t' n [x] [(k, .count)] ↔ p.map List.length = layoutOf ps n) := by
  have hrel := imputeCarry_rel ps missing store t t' targets hwf h
  have hr : Rect t' n := by
    intro c' hc'
    obtain ⟨c, hc, hR⟩ := forall₂_mem_right hrel c' hc'
    have hcn := ht c hc
    have hR2 := hR.2
    split at hR2
    · rw [colLen_eq, List.length_flatten, hR2, (layoutOf_pos ps _ hps).2, hcn]
    · rw [hR2, hcn]
  refine ⟨hr, ?_⟩
  have hkt : k ∈ t.map (·.1) := by
    unfold imputeCarry at h
    dsimp only at h
    split at h
    · rename_i ha
      simpa using List.all_eq_true.1 ha k hk
    · cases h
  obtain ⟨pk, hpk⟩ := Option.isSome_iff_exists.1 ((dGet_isSome k t).2 hkt)
  obtain ⟨p', hp', hR⟩ : ∃ p', dGet x t' = some p' ∧ p' = p := by
    rcases dGet_forall₂ hrel (fun c c' h => h.1) x with h | ⟨a, b, h1, h2, h3⟩
    · rw [hp] at h; cases h.1
    · rw [hp] at h1; cases h1
      simp only [if_neg hx] at h3
      exact ⟨b, h2, h3.2⟩
  subst hR
  obtain ⟨q, hq, hQ⟩ : ∃ q, dGet k t' = some q ∧ q.map List.length = layoutOf ps n := by
    rcases dGet_forall₂ hrel (fun c c' h => h.1) k with h | ⟨a, b, h1, h2, h3⟩
    · rw [hpk] at h; cases h.1
    · rw [hpk] at h1; cases h1
      simp only [if_pos hk] at h3
      refine ⟨b, h2, ?_⟩
      rw [h3.2, ht _ (dGet_some_mem _ _ _ hpk)]
  rw [groups_pair sqrt nm ps hps t' n hr x k _ q hp' hq (hs _ (dGet_some_mem _ _ _ hp)) (solid_of_layout ps n hps q hQ) (fun e => hx (e ▸ hk)) hnm, hQ]

/-- **C134** (exact), lookup: counting a looked up column by a column of the table is right exactly when the latter is cut into full pages -/
theorem C134_lookup_exact {η : Type} [DecidableEq η] (sqrt : Rat → Rat) (nm : Acc → ν → ν) (hash : List GVal → η) (ord : List ν → List ν) (hord : ∀ l, (ord l).Perm l) (ps : Nat) (hps : 0 < ps) (mk : ν → Nat → ν)
    (hmk : ∀ d a b, mk d a = mk d b → a = b) (all : Bool) (t o t' : Tbl ν GVal) (n : Nat) (ht : Rect t n) (hs : Solid t) (ho : Solid o) (crits : List (Criterion ν GVal))
    (h : tblLookup hash ord ps mk .none all t o crits = .ok t') (hr : Rect t' n) (x k : ν) (p : Pages GVal) (hp : dGet x t = some p) (hk : k ∈ t'.map (·.1)) (hk' : k ∉ t.map (·.1)) (hnm : x ≠ nm .count k) :
    GroupsOk .none accInit accUpdate (accValue sqrt) nm ps t' n [x] [(k, .count)] ↔ p.map List.length = layoutOf ps n := by
  obtain ⟨add, rfl, hadd⟩ := tblLookup_adds hash ord hord ps hps mk hmk .none all t o t' n ht ho crits h hr
  obtain ⟨q, hq⟩ := Option.isSome_iff_exists.1 ((dGet_isSome k (t ++ add)).2 hk)
  have hpx : dGet x (t ++ add) = some p := by rw [dGet_app, hp]; rfl
  have hQ : q.map List.length = layoutOf ps n := by
    rcases List.mem_append.1 (dGet_some_mem _ _ _ hq) with hm | hm
    · exact absurd (List.mem_map.2 ⟨_, hm, rfl⟩) hk'
    · exact hadd _ hm
  have hxt : x ∈ t.map (·.1) := (dGet_isSome x t).1 (by rw [hp]; rfl)
  rw [groups_pair sqrt nm ps hps _ n hr x k p q hpx hq (hs _ (dGet_some_mem _ _ _ hp)) (solid_of_layout ps n hps q hQ) (fun e => hk' (e ▸ hxt)) hnm, hQ]

/-- **C134** (exact), merge: counting the merged column by a column of the table is right exactly when the latter is cut into full pages -/
theorem C134_where_exact (sqrt : Rat → Rat) (nm : Acc → ν → ν) (ps : Nat) (hps : 1 < ps) (mk : ν → Nat → ν) (hmk : ∀ d a b, mk d a = mk d b → a = b) (t t' : Tbl ν GVal) (crit : List Bool) (left right new : ν)
    (ht : Rect t crit.length) (hs : Solid t) (hl : left ∈ t.map (·.1)) (hrt : right ∈ t.map (·.1)) (hlr : left ≠ right) (h : tblWhere ps mk t crit left right new = .ok t') (hr : Rect t' crit.length)
    (x : ν) (p : Pages GVal) (hp : dGet x t = some p) (hx : x ≠ left ∧ x ≠ right ∧ x ≠ new) (hnm : x ≠ nm .count new) :
    GroupsOk .none accInit accUpdate (accValue sqrt) nm ps t' crit.length [x] [(new, .count)] ↔ p.map List.length = layoutOf ps crit.length := by
  obtain ⟨l, r, col, h1, h2, h3, _, h5, h6⟩ := tblWhere_pages ps mk hmk t t' crit left right new hl hrt hlr h
  have hxt : x ∈ t.map (·.1) := (dGet_isSome x t).1 (by rw [hp]; rfl)
  have hpx : dGet x t' = some p := by rw [h6 x hxt hx.2.2 hx.1 hx.2.1, hp]
  have hQ := whereLoop_layout ps hps crit l r col (ht _ (dGet_some_mem _ _ _ h1)) (ht _ (dGet_some_mem _ _ _ h2)) h3 (hr _ (dGet_some_mem _ _ _ h5))
  rw [groups_pair sqrt nm ps (by omega) _ _ hr x new p col hpx h5 (hs _ (dGet_some_mem _ _ _ hp)) (solid_of_layout ps _ (by omega) col hQ) hx.2.2 hnm, hQ]

end

section
variable {ν α φ σ : Type} [DecidableEq ν] [DecidableEq α]

theorem computed_groups (nul : α) (init : φ → σ) (upd : φ → σ → α → Except Err σ) (val : φ → σ → Except Err α) (nm : φ → ν → ν) (ps : Nat) (hps : 0 < ps) (t t' : Tbl ν α) (n : Nat)
    (hfull : ∀ c ∈ t, c.2.map List.length = layoutOf ps n) (hc : Computed ps n t t') (keys : List ν) (functions : List (ν × φ)) (hin : ∀ a ∈ keys ++ functions.map (·.1), a ∈ t'.map (·.1))
    (hsome : keys.length + functions.length ≠ 0) (hnd : (keys ++ functions.map fun f => nm f.2 f.1).Nodup) : GroupsOk nul init upd val nm ps t' n keys functions := by
  have := C33_partial nul init upd val nm ps hps t' (layoutOf ps n) keys functions (fun a ha => by
    obtain ⟨p, hp⟩ := Option.isSome_iff_exists.1 ((dGet_isSome a t').2 (hin a ha))
    exact ⟨p, hp, by rcases hc _ (dGet_some_mem _ _ _ hp) with h | h <;> [exact hfull _ h; exact h]⟩) hsome hnd
  rwa [(layoutOf_pos ps n hps).2] at this

/-- a column is computed: gaps are filled by carrying values forward, columns are looked up in another table, or two columns are merged (spec vocabulary) -/
inductive Computes {η : Type} [DecidableEq η] (hash : List α → η) (ord : List ν → List ν) (ps : Nat) (mk : ν → Nat → ν) (nul : α) : Nat → Tbl ν α → Tbl ν α → Prop
  | carry (missing : α → Bool) (store : List α → Except Err α) (n : Nat) (t t' : Tbl ν α) (targets : List ν) (h : imputeCarry ps missing store t (.inr targets) = .ok t') : Computes hash ord ps mk nul n t t'
  | lookup (all : Bool) (n : Nat) (t o t' : Tbl ν α) (crits : List (Criterion ν α)) (ho : Solid o) (h : tblLookup hash ord ps mk nul all t o crits = .ok t') : Computes hash ord ps mk nul n t t'
  | merge (t t' : Tbl ν α) (crit : List Bool) (left right new : ν) (hl : left ∈ t.map (·.1)) (hr : right ∈ t.map (·.1)) (hlr : left ≠ right) (h : tblWhere ps mk t crit left right new = .ok t') :
      Computes hash ord ps mk nul crit.length t t'

/-- **C134** partial: a table of full pages to which columns are computed, with as many rows as before, is grouped without losing a row, by any columns.  Missing: tables that are cut otherwise (`C134_fails`,
`C134_exact`). -/
theorem C134_partial {η : Type} [DecidableEq η] (hash : List α → η) (ord : List ν → List ν) (hord : ∀ l, (ord l).Perm l) (mk : ν → Nat → ν) (hmk : ∀ d a b, mk d a = mk d b → a = b)
    (nul : α) (init : φ → σ) (upd : φ → σ → α → Except Err σ) (val : φ → σ → Except Err α) (nm : φ → ν → ν) (ps : Nat) (hps : 1 < ps) (t t' : Tbl ν α) (n : Nat) (hwf : TblWF t) (hr : Rect t' n)
    (hfull : ∀ c ∈ t, c.2.map List.length = layoutOf ps n) (h : Computes hash ord ps mk nul n t t') :
    (∀ c ∈ t', c.2.map List.length = layoutOf ps n) ∧
    ∀ (keys : List ν) (functions : List (ν × φ)), (∀ a ∈ keys ++ functions.map (·.1), a ∈ t'.map (·.1)) →
      keys.length + functions.length ≠ 0 → (keys ++ functions.map fun f => nm f.2 f.1).Nodup → GroupsOk nul init upd val nm ps t' n keys functions := by
  have hps0 : 0 < ps := by omega
  have ht : Rect t n := fun c hc => by rw [colLen_eq, List.length_flatten, hfull c hc, (layoutOf_pos ps n hps0).2]
  have hcomp : Computed ps n t t' := by
    cases h with
    | carry missing store _ _ _ targets h =>
      intro c' hc'
      obtain ⟨c, hc, h1, h2⟩ := forall₂_mem_right (imputeCarry_rel ps missing store t t' targets hwf h) c' hc'
      right
      split at h2
      · rw [h2, ht c hc]
      · rw [h2, hfull c hc]
    | lookup all _ _ o _ crits ho h =>
      obtain ⟨add, rfl, hadd⟩ := tblLookup_adds hash ord hord ps hps0 mk hmk nul all t o t' n ht ho crits h hr
      intro c hc
      rcases List.mem_append.1 hc with hc | hc
      · exact .inl hc
      · exact .inr (hadd c hc)
    | merge _ _ crit left right new hl hrt hlr h =>
      obtain ⟨l, r, col, h1, h2, h3, h4, h5, h6⟩ := tblWhere_pages ps mk hmk t t' crit left right new hl hrt hlr h
      intro c hc
      rcases h4 c hc with hc' | e
      · exact .inl hc'
      · right
        rw [e]
        exact whereLoop_layout ps hps crit l r col (ht _ (dGet_some_mem _ _ _ h1)) (ht _ (dGet_some_mem _ _ _ h2)) h3 (e ▸ hr c hc)
  exact ⟨fun c hc => by rcases hcomp c hc with h | h <;> [exact hfull c h; exact h], fun keys functions hin hsome hnd => computed_groups nul init upd val nm ps hps0 t t' n hfull hcomp keys functions hin hsome hnd⟩

end

/-- the full claim: a table whose columns are cut alike - every group-by on it is right - gets a computed column, with as many rows as before.  Then a group-by sees all rows. -/
def C134_statement (sqrt : Rat → Rat) : Prop :=
  ∀ (ps : Nat) (t t' : Tbl String GVal) (n : Nat) (keys : List String) (functions : List (String × Acc)), 1 < ps → TblWF t → Aligned t → Solid t → Rect t n →
    Computes (fun l : List GVal => l) id ps suffixed .none n t t' → Rect t' n →
    (∀ a ∈ keys ++ functions.map (·.1), a ∈ t'.map (·.1)) → keys.length + functions.length ≠ 0 → (keys ++ functions.map fun f => accName f.2 f.1).Nodup →
    GroupsOk .none accInit accUpdate (accValue sqrt) accName ps t' n keys functions

/-- the gap of a table stacked from two is filled; then the rows are counted by the other column: the second row is lost.  Before, it was counted. -/
theorem C134_effect (sqrt : Rat → Rat) :
    let t : Tbl String GVal := [("k", [[.int 1], [.int 2]]), ("v", [[.int 5], [.none]])]
    let t' : Tbl String GVal := [("k", [[.int 1], [.int 2]]), ("v", [[.int 5, .int 5]])]
    imputeCarry 10 (fun v => v = GVal.none) (fun _ => .ok .none) t (.inr ["v"]) = .ok t' ∧
    (groupby .none accInit accUpdate (accValue sqrt) accName 10 t ["k"] [("v", .count)]).map tview = .ok [("k", [.int 1, .int 2]), ("Count(v)", [.int 1, .int 1])] ∧
    (groupby .none accInit accUpdate (accValue sqrt) accName 10 t' ["k"] [("v", .count)]).map tview = .ok [("k", [.int 1]), ("Count(v)", [.int 1])] := by
  intro t t'
  have eff : ∀ u : Tbl String GVal, u = t ∨ u = t' → ∃ r, groupby .none accInit accUpdate (accValue sqrt) accName 10 u ["k"] [("v", .count)] = .ok r ∧
      tview r = if u = t then [("k", [.int 1, .int 2]), ("Count(v)", [.int 1, .int 1])] else [("k", [.int 1]), ("Count(v)", [.int 1])] := by
    rintro u (rfl | rfl)
    · obtain ⟨r, h1, h2⟩ := C33_effect .none accInit accUpdate (accValue sqrt) accName 10 (by omega) t ["k"] [("v", Acc.count)] (by simp) (by decide +kernel) (by decide +kernel) (fun _ _ => .int 1) (by
        intro f hf k hk
        simp only [List.mem_singleton] at hf
        subst hf
        rw [aggOf_acc, C34_count, List.length_map]
        revert k
        decide +kernel)
      refine ⟨r, h1, ?_⟩
      rw [h2]
      decide +kernel
    · obtain ⟨r, h1, h2⟩ := C33_effect .none accInit accUpdate (accValue sqrt) accName 10 (by omega) t' ["k"] [("v", Acc.count)] (by simp) (by decide +kernel) (by decide +kernel) (fun _ _ => .int 1) (by
        intro f hf k hk
        simp only [List.mem_singleton] at hf
        subst hf
        rw [aggOf_acc, C34_count, List.length_map]
        revert k
        decide +kernel)
      refine ⟨r, h1, ?_⟩
      rw [h2]
      decide +kernel
  refine ⟨by decide +kernel, ?_, ?_⟩
  · obtain ⟨r, h1, h2⟩ := eff t (.inl rfl)
    rw [h1]
    show Except.ok (tview r) = _
    rw [h2, if_pos rfl]
  · obtain ⟨r, h1, h2⟩ := eff t' (.inr rfl)
    rw [h1]
    show Except.ok (tview r) = _
    rw [h2, if_neg (by decide +kernel)]

theorem C134_fails (sqrt : Rat → Rat) : ¬ C134_statement sqrt := by
  intro h
  have hi := (C134_effect sqrt).1
  have hex := C134_exact sqrt accName 10 (by omega) _ _ _ _ 2 (by unfold TblWF; decide) (by unfold Rect; decide) (by unfold Solid; decide) _ hi "k" "v" _ rfl (by decide) (by decide) (by decide +kernel)
  have := hex.2.1 (h 10 _ _ 2 ["k"] [("v", .count)] (by omega) (by unfold TblWF; decide) ⟨[1, 1], by decide⟩ (by unfold Solid; decide) (by unfold Rect; decide) (.carry _ _ 2 _ _ _ hi) hex.1 (by decide) (by decide)
    (by decide +kernel))
  revert this
  decide

/-- `C134_lookup_exact` on a stacked table: the looked up column is one page, the others are two -/
example : tblLookup (fun l : List GVal => l) id 10 suffixed .none true ([("k", [[.int 1], [.int 2]])] : Tbl String GVal) [("a", [[.int 2, .int 1]]), ("b", [[.int 7, .int 8]])]
    [⟨fun x y => x = y, .name "k" (.int 0), .name "a" (.int 0)⟩] = .ok [("k", [[.int 1], [.int 2]]), ("a", [[.int 1, .int 2]]), ("b", [[.int 8, .int 7]])] := by decide +kernel

/-- `C134_where_exact` on a stacked table -/
example : tblWhere 10 suffixed ([("k", [[.int 1], [.int 2]]), ("a", [[.int 3], [.int 4]]), ("b", [[.int 5], [.int 6]])] : Tbl String GVal) [true, false] "a" "b" "c" =
    .ok [("k", [[.int 1], [.int 2]]), ("c", [[.int 3, .int 6]])] := by decide +kernel

/-- `C134_partial` on a table of one page -/
example : (∀ c ∈ ([("k", [[.int 1, .int 2]]), ("v", [[.int 5, .none]])] : Tbl String GVal), c.2.map List.length = layoutOf 10 2) ∧
    Computes (fun l : List GVal => l) id 10 suffixed .none 2 ([("k", [[.int 1, .int 2]]), ("v", [[.int 5, .none]])] : Tbl String GVal) [("k", [[.int 1, .int 2]]), ("v", [[.int 5, .int 5]])] :=
  ⟨by decide, .carry (fun v => v = GVal.none) (fun _ => .ok .none) 2 _ _ ["v"] (by decide +kernel)⟩

end Tablite
