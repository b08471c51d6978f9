import Verif.Model.Refcount
import Mathlib.Data.List.Nodup
import Mathlib.Data.List.Range
import Mathlib.Data.List.Perm.Subperm
/-!
# C22: page files live exactly as long as someone uses them
-/

namespace Tablite

section
variable {P D Δ : Type} [DecidableEq P]

/-! ## dictionaries -/

theorem dGet_upd {κ β : Type} [DecidableEq κ] (init : β) (k k' : κ) (f : β → β) (d : List (κ × β)) :
    dGet k' (dUpd init k f d) = if k' = k then some (f ((dGet k d).getD init)) else dGet k' d := by
  induction d with
  | nil =>
    by_cases h : k' = k
    · subst h; simp [dUpd, dGet]
    · simp [dUpd, dGet, h, Ne.symm h]
  | cons e t ih =>
    obtain ⟨a, b⟩ := e
    by_cases ha : a = k
    · subst ha
      by_cases h : k' = a
      · subst h; simp [dUpd, dGet]
      · simp [dUpd, dGet, h, Ne.symm h]
    · by_cases h : k' = k
      · subst h; simp only [dUpd, if_neg ha, dGet, ih, if_true]
      · simp only [dUpd, if_neg ha, dGet, ih, if_neg h]

theorem dGet_del {κ β : Type} [DecidableEq κ] (k k' : κ) (d : List (κ × β)) : dGet k' (dDel k d) = if k' = k then none else dGet k' d := by
  induction d with
  | nil => simp [dDel, dGet]
  | cons e t ih =>
    obtain ⟨a, b⟩ := e
    have ih' : dGet k' (t.filter fun e => decide (e.1 ≠ k)) = if k' = k then none else dGet k' t := ih
    by_cases ha : a = k
    · subst ha
      simp only [dDel, List.filter_cons, ne_eq, not_true_eq_false, decide_false, Bool.false_eq_true, if_false]
      rw [ih']
      by_cases h : k' = a
      · simp [h]
      · simp [dGet, h, Ne.symm h]
    · simp only [dDel, List.filter_cons, ne_eq, ha, not_false_eq_true, decide_true, if_true, dGet]
      by_cases h : a = k'
      · subst h; simp [ha]
      · simp only [if_neg h]; exact ih'

theorem dGet_app {κ β : Type} [DecidableEq κ] (k : κ) (d e : List (κ × β)) : dGet k (d ++ e) = (dGet k d).or (dGet k e) := by
  induction d with
  | nil => simp [dGet]
  | cons x t ih =>
    obtain ⟨a, b⟩ := x
    by_cases h : a = k <;> simp [dGet, h, ih]

theorem dGet_isSome_iff {κ β : Type} [DecidableEq κ] (k : κ) (d : List (κ × β)) : (dGet k d).isSome = true ↔ k ∈ d.map (·.1) := by
  induction d with
  | nil => simp [dGet]
  | cons x t ih =>
    obtain ⟨a, b⟩ := x
    by_cases h : a = k
    · simp [dGet, h]
    · simp only [dGet, if_neg h, ih, List.map_cons, List.mem_cons]
      constructor
      · exact Or.inr
      · rintro (e | e)
        · exact absurd e.symm h
        · exact e

theorem dGet_some_mem {κ β : Type} [DecidableEq κ] (k : κ) (d : List (κ × β)) (b : β) (h : dGet k d = some b) : (k, b) ∈ d := by
  induction d with
  | nil => simp [dGet] at h
  | cons x t ih =>
    obtain ⟨a, c⟩ := x
    by_cases hk : a = k
    · subst hk; simp [dGet] at h; simp [h]
    · simp only [dGet, if_neg hk] at h; exact List.mem_cons_of_mem _ (ih h)

theorem dGet_mem_nodup {κ β : Type} [DecidableEq κ] (d : List (κ × β)) (hn : (d.map (·.1)).Nodup) (k : κ) (b : β) (h : (k, b) ∈ d) :
    dGet k d = some b := by
  induction d with
  | nil => simp at h
  | cons x t ih =>
    obtain ⟨a, c⟩ := x
    simp only [List.map_cons, List.nodup_cons] at hn
    rcases List.mem_cons.1 h with e | e
    · cases e; simp [dGet]
    · have : a ≠ k := by
        intro ea; subst ea
        exact hn.1 (List.mem_map.2 ⟨_, e, rfl⟩)
      simp only [dGet, if_neg this]; exact ih hn.2 e

/-! ## fresh names -/

theorem nextIdLoop_ge (mk : Nat → P) (files : List (P × D)) (fuel n : Nat) : n ≤ nextIdLoop mk files fuel n := by
  induction fuel generalizing n with
  | zero => simp [nextIdLoop]
  | succ f ih =>
    simp only [nextIdLoop]
    split
    · have := ih (n + 1); omega
    · exact Nat.le_refl _

/-- if the loop runs out of fuel, all names tried exist -/
theorem nextIdLoop_tried (mk : Nat → P) (files : List (P × D)) (fuel n : Nat) :
    (dGet (mk (nextIdLoop mk files fuel n)) files).isSome = false ∨ ∀ i, n ≤ i → i < n + fuel → (dGet (mk i) files).isSome = true := by
  induction fuel generalizing n with
  | zero => exact Or.inr (fun i h1 h2 => by omega)
  | succ f ih =>
    simp only [nextIdLoop]
    by_cases h : (dGet (mk n) files).isSome = true
    · rw [if_pos h]
      rcases ih (n + 1) with h1 | h1
      · exact Or.inl h1
      · refine Or.inr fun i hi hi' => ?_
        rcases Nat.eq_or_lt_of_le hi with e | e
        · subst e; exact h
        · exact h1 i e (by omega)
    · rw [if_neg h]; left; simpa using h

/-- `next_id` terminates with a name for which there is no file -/
theorem nextIdLoop_fresh (mk : Nat → P) (hmk : Function.Injective mk) (files : List (P × D)) (n : Nat) :
    dGet (mk (nextIdLoop mk files (files.length + 1) n)) files = none := by
  rcases nextIdLoop_tried mk files (files.length + 1) n with h | h
  · simpa using h
  · exfalso
    have hsub : ((List.range (files.length + 1)).map fun i => mk (n + i)) ⊆ files.map (·.1) := by
      intro x hx
      obtain ⟨i, hi, rfl⟩ := List.mem_map.1 hx
      exact (dGet_isSome_iff _ _).1 (h (n + i) (by omega) (by have := List.mem_range.1 hi; omega))
    have hnd : ((List.range (files.length + 1)).map fun i => mk (n + i)).Nodup :=
      List.Nodup.map (fun a b e => by have := hmk e; omega) List.nodup_range
    have := (List.subperm_of_subset hnd hsub).length_le
    simp only [List.length_map, List.length_range] at this
    omega

/-! ## the invariant -/

/-- number of live objects with path `p` -/
def Proc.live (s : Proc P D) (p : P) : Nat := s.objs.countP fun e => e.2.1 = p

/-- the invariant -/
structure ProcInv (owns : P → Bool) (s : Proc P D) : Prop where
  nodup : (s.objs.map (·.1)).Nodup
  bound : ∀ e ∈ s.objs, e.1 < s.nextObj
  counts : ∀ p, owns p = true → dGet p s.refcounts = if s.live p = 0 then none else some (s.live p)
  files : ∀ e ∈ s.objs, owns e.2.1 = true → dGet e.2.1 s.files = some e.2.2
  cols : ∀ c ∈ s.cols, ∀ o ∈ c, (dGet o s.objs).isSome = true

theorem ProcInv.newObj {owns : P → Bool} {s : Proc P D} (h : ProcInv owns s) (p : P) (d : D) (hp : owns p = true → dGet p s.files = some d) :
    ProcInv owns (s.newObj owns p d) := by
  have hlive : ∀ q, (s.newObj owns p d).live q = s.live q + if p = q then 1 else 0 := by
    intro q
    simp only [Proc.live, Proc.newObj, List.countP_append, List.countP_cons, List.countP_nil]
    by_cases e : p = q <;> simp [e]
  refine ⟨?_, ?_, ?_, ?_, ?_⟩
  · simp only [Proc.newObj, List.map_append, List.map_cons, List.map_nil]
    rw [List.nodup_append]
    refine ⟨h.nodup, by simp, ?_⟩
    intro a ha b hb e
    obtain ⟨x, hx, rfl⟩ := List.mem_map.1 ha
    have := h.bound x hx
    simp only [List.mem_singleton] at hb
    omega
  · intro e he
    simp only [Proc.newObj, List.mem_append, List.mem_singleton] at he ⊢
    rcases he with he | he
    · have := h.bound e he; omega
    · subst he; simp
  · intro q hq
    rw [hlive]
    show dGet q (incrRef owns p s.refcounts) = _
    unfold incrRef
    by_cases hpq : p = q
    · subst hpq
      rw [if_pos hq, dGet_upd, if_pos rfl, h.counts p hq]
      by_cases h0 : s.live p = 0 <;> simp [h0]
    · have hq' : q ≠ p := fun e => hpq e.symm
      split
      · rw [dGet_upd, if_neg hq', h.counts q hq]; simp
      · rw [h.counts q hq]; simp
  · intro e he ho
    simp only [Proc.newObj, List.mem_append, List.mem_singleton] at he
    rcases he with he | he
    · exact h.files e he ho
    · subst he; exact hp ho
  · intro c hc o ho
    have := h.cols c hc o ho
    simp only [Proc.newObj]
    rw [dGet_app]
    cases hh : dGet o s.objs with
    | none => simp [hh] at this
    | some v => simp

theorem countP_del (l : List (Nat × (P × D))) (hn : (l.map (·.1)).Nodup) (o : Nat) (p : P) (d : D) (h : (o, (p, d)) ∈ l) (q : P) :
    (dDel o l).countP (fun e => e.2.1 = q) + (if p = q then 1 else 0) = l.countP (fun e => e.2.1 = q) := by
  induction l with
  | nil => simp at h
  | cons x t ih =>
    obtain ⟨a, p', d'⟩ := x
    simp only [List.map_cons, List.nodup_cons] at hn
    rcases List.mem_cons.1 h with e | e
    · cases e
      have : dDel o ((o, (p, d)) :: t) = t := by
        simp only [dDel, List.filter_cons, ne_eq, not_true_eq_false, decide_false, Bool.false_eq_true, if_false]
        rw [List.filter_eq_self]
        intro y hy
        simp only [decide_eq_true_eq]
        intro e; subst e
        exact hn.1 (List.mem_map.2 ⟨y, hy, rfl⟩)
      rw [this, List.countP_cons]
      by_cases e : p = q <;> simp [e]
    · have hne : a ≠ o := by
        intro ea; subst ea
        exact hn.1 (List.mem_map.2 ⟨_, e, rfl⟩)
      have : dDel o ((a, (p', d')) :: t) = (a, (p', d')) :: dDel o t := by
        simp only [dDel, List.filter_cons, ne_eq, hne, not_false_eq_true, decide_true, if_true]
      rw [this, List.countP_cons, List.countP_cons, ← ih hn.2 e]
      omega

/-- the state after the collection of one object -/
theorem ProcInv.collect {owns : P → Bool} {s : Proc P D} (h : ProcInv owns s) (o : Nat) (p : P) (d : D) (ho : dGet o s.objs = some (p, d))
    (hc : ∀ c ∈ s.cols, o ∉ c) : ProcInv owns ({ s with objs := dDel o s.objs }.del owns p) := by
  have hmem := dGet_some_mem _ _ _ ho
  have hlive : ∀ q, (dDel o s.objs).countP (fun e => decide (e.2.1 = q)) + (if p = q then 1 else 0) = s.live q :=
    fun q => countP_del s.objs h.nodup o p d hmem q
  have hsub : (dDel o s.objs).Sublist s.objs := List.filter_sublist
  have hnodup : ((dDel o s.objs).map (·.1)).Nodup := h.nodup.sublist (hsub.map _)
  have hcols : ∀ c ∈ s.cols, ∀ x ∈ c, (dGet x (dDel o s.objs)).isSome = true := by
    intro c hc' x hx
    rw [dGet_del, if_neg (fun (e : x = o) => hc c hc' (e ▸ hx))]
    exact h.cols c hc' x hx
  unfold Proc.del
  by_cases hp : owns p = true
  · have hpos : 0 < s.live p := by have := hlive p; simp at this; omega
    have hrc : (dGet p s.refcounts).getD 0 = s.live p := by
      rw [h.counts p hp, if_neg (by omega)]; rfl
    simp only [hp, Bool.not_true, Bool.false_eq_true, if_false, hrc, Nat.max_zero]
    by_cases h1 : s.live p - 1 > 0
    · rw [if_pos h1]
      refine ⟨hnodup, fun e he => h.bound e (hsub.mem he), ?_, fun e he hoe => h.files e (hsub.mem he) hoe, hcols⟩
      intro q hq
      have hl := hlive q
      show dGet q (dUpd 0 p _ s.refcounts) = if (dDel o s.objs).countP (fun e => decide (e.2.1 = q)) = 0 then none else some _
      rw [dGet_upd]
      by_cases hpq : p = q
      · subst hpq
        simp only [if_true] at hl ⊢
        rw [if_neg (by omega)]
        congr 1
        show s.live p - 1 = (dDel o s.objs).countP (fun e => decide (e.2.1 = p))
        omega
      · rw [if_neg (fun e => hpq e.symm), h.counts q hq]
        rw [if_neg hpq, Nat.add_zero] at hl
        show _ = if (dDel o s.objs).countP (fun e => decide (e.2.1 = q)) = 0 then none else some ((dDel o s.objs).countP fun e => decide (e.2.1 = q))
        rw [hl]
    · rw [if_neg h1]
      have h0 : (dDel o s.objs).countP (fun e => decide (e.2.1 = p)) = 0 := by have := hlive p; simp only [if_true] at this; omega
      refine ⟨hnodup, fun e he => h.bound e (hsub.mem he), ?_, ?_, hcols⟩
      · intro q hq
        have hl := hlive q
        show dGet q (dDel p (dUpd 0 p _ s.refcounts)) = if (dDel o s.objs).countP (fun e => decide (e.2.1 = q)) = 0 then none else some ((dDel o s.objs).countP fun e => decide (e.2.1 = q))
        rw [dGet_del, dGet_upd]
        by_cases hpq : p = q
        · subst hpq; rw [if_pos rfl, h0, if_pos rfl]
        · rw [if_neg (fun e => hpq e.symm), if_neg (fun e => hpq e.symm), h.counts q hq]
          rw [if_neg hpq, Nat.add_zero] at hl
          rw [hl]
      · intro e he hoe
        have hne : e.2.1 ≠ p := by
          intro ee
          have := List.countP_eq_zero.1 h0 e he
          simp [ee] at this
        show dGet e.2.1 (dDel p s.files) = _
        rw [dGet_del, if_neg hne]
        exact h.files e (hsub.mem he) hoe
  · have hp' : owns p = false := by simpa using hp
    simp only [hp', Bool.not_false, if_true]
    refine ⟨hnodup, fun e he => h.bound e (hsub.mem he), ?_, fun e he hoe => h.files e (hsub.mem he) hoe, hcols⟩
    intro q hq
    have hl := hlive q
    have hpq : p ≠ q := fun e => by subst e; simp [hq] at hp'
    rw [if_neg hpq, Nat.add_zero] at hl
    show dGet q s.refcounts = if (dDel o s.objs).countP (fun e => decide (e.2.1 = q)) = 0 then none else some ((dDel o s.objs).countP fun e => decide (e.2.1 = q))
    rw [hl]; exact h.counts q hq

theorem ProcInv.setFiles {owns : P → Bool} {s : Proc P D} (h : ProcInv owns s) (fs : List (P × D))
    (hf : ∀ e ∈ s.objs, owns e.2.1 = true → dGet e.2.1 fs = some e.2.2) : ProcInv owns { s with files := fs } :=
  ⟨h.nodup, h.bound, h.counts, hf, h.cols⟩

theorem ProcInv.step {mk : Δ → Nat → P} (hmk : ∀ dir, Function.Injective (mk dir)) {owns : P → Bool} {s s' : Proc P D} (h : ProcInv owns s)
    (e : Ev P D Δ) (hs : s.step mk owns e = some s') : ProcInv owns s' := by
  cases e with
  | reserve dir => cases hs; exact ⟨h.nodup, h.bound, h.counts, h.files, h.cols⟩
  | create dir d =>
    cases hs
    have hfresh := nextIdLoop_fresh (mk dir) (hmk dir) s.files s.nextId
    generalize hn : nextIdLoop (mk dir) s.files (s.files.length + 1) s.nextId = n at hfresh
    have h1 : ProcInv owns ({ s with nextId := n + 1, files := dUpd d (mk dir n) (fun _ => d) s.files } : Proc P D) := by
      refine ⟨h.nodup, h.bound, h.counts, ?_, h.cols⟩
      intro e he ho
      rw [dGet_upd, if_neg]
      · exact h.files e he ho
      · intro ee
        have := h.files e he ho
        rw [ee, hfresh] at this; simp at this
    exact h1.newObj (mk dir n) d (fun _ => by rw [dGet_upd, if_pos rfl])
  | write p d =>
    simp only [Proc.step] at hs
    split at hs
    · simp at hs
    · rename_i hp
      cases hs
      refine h.setFiles _ ?_
      intro e he ho
      rw [dGet_app, h.files e he ho]; rfl
  | foreignRemove p =>
    simp only [Proc.step] at hs
    split at hs
    · simp at hs
    · rename_i hp
      cases hs
      refine h.setFiles _ ?_
      intro e he ho
      rw [dGet_del, if_neg (fun (ee : e.2.1 = p) => hp (ee ▸ ho))]
      exact h.files e he ho
  | adopt p =>
    simp only [Proc.step] at hs
    split at hs
    · simp at hs
    · rename_i d hd
      cases hs
      exact h.newObj p d (fun _ => hd)
  | newCol ids =>
    simp only [Proc.step] at hs
    split at hs
    · rename_i hall
      cases hs
      refine ⟨h.nodup, h.bound, h.counts, h.files, ?_⟩
      intro c hc o ho
      rcases List.mem_append.1 hc with hc | hc
      · exact h.cols c hc o ho
      · simp only [List.mem_singleton] at hc; subst hc
        exact List.all_eq_true.1 hall o ho
    · simp at hs
  | setCol k ids =>
    simp only [Proc.step] at hs
    split at hs
    · rename_i hall
      cases hs
      refine ⟨h.nodup, h.bound, h.counts, h.files, ?_⟩
      intro c hc o ho
      rcases List.mem_or_eq_of_mem_set hc with hc | hc
      · exact h.cols c hc o ho
      · subst hc; exact List.all_eq_true.1 hall o ho
    · simp at hs
  | collect o =>
    simp only [Proc.step] at hs
    split at hs
    · simp at hs
    · rename_i p d hd
      split at hs
      · simp at hs
      · rename_i hany
        cases hs
        refine h.collect o p d hd ?_
        intro c hc ho
        apply hany
        simp only [List.any_eq_true, decide_eq_true_eq]
        exact ⟨c, hc, ho⟩

theorem ProcInv.run {mk : Δ → Nat → P} (hmk : ∀ dir, Function.Injective (mk dir)) {owns : P → Bool} {s s' : Proc P D} (h : ProcInv owns s)
    (es : List (Ev P D Δ)) (hs : s.run mk owns es = some s') : ProcInv owns s' := by
  induction es generalizing s with
  | nil => cases hs; exact h
  | cons e es ih =>
    simp only [Proc.run] at hs
    cases h1 : s.step mk owns e with
    | none => simp [h1] at hs
    | some s1 => rw [h1] at hs; exact ih (h.step hmk e h1) hs

/-- a process that has just started: some files and any counter, no page objects, no columns -/
def Proc.Started (s : Proc P D) : Prop := s.refcounts = [] ∧ s.objs = [] ∧ s.cols = []

theorem ProcInv.started {owns : P → Bool} {s : Proc P D} (h : s.Started) : ProcInv owns s := by
  obtain ⟨h1, h2, h3⟩ := h
  refine ⟨by simp [h2], by simp [h2], ?_, by simp [h2], by simp [h3]⟩
  intro p _
  simp [h1, dGet, Proc.live, h2]

/-! ## C22 -/

/-- the data a column's page objects were created for, and the data found in their files -/
def Proc.pageData (s : Proc P D) (o : Nat) : Option (P × D) := dGet o s.objs

/-- **C22a** in every history, whatever is created, shared, unpickled, dropped and collected in between: every page to which a column refers
is alive, and if its path belongs to this process, its file exists and holds the data the page was created with. -/
theorem C22_live_files (mk : Δ → Nat → P) (hmk : ∀ dir, Function.Injective (mk dir)) (owns : P → Bool) (s0 s : Proc P D) (h0 : s0.Started)
    (es : List (Ev P D Δ)) (hs : s0.run mk owns es = some s) (c : List Nat) (hc : c ∈ s.cols) (o : Nat) (ho : o ∈ c) :
    ∃ p d, s.pageData o = some (p, d) ∧ (owns p = true → dGet p s.files = some d) := by
  have hinv : ProcInv owns s := (ProcInv.started h0).run hmk es hs
  have := hinv.cols c hc o ho
  cases hh : dGet o s.objs with
  | none => simp [hh] at this
  | some v => exact ⟨v.1, v.2, hh, fun hown => hinv.files _ (dGet_some_mem _ _ _ hh) hown⟩

/-- **C22b** no step changes or removes the file of a page of this process that is alive before and after the step -/
theorem C22_untouched (mk : Δ → Nat → P) (hmk : ∀ dir, Function.Injective (mk dir)) (owns : P → Bool) (s0 s s' : Proc P D) (h0 : s0.Started)
    (es : List (Ev P D Δ)) (hs : s0.run mk owns es = some s) (e : Ev P D Δ) (he : s.step mk owns e = some s') (o : Nat) (p : P) (d : D)
    (ho : s.pageData o = some (p, d)) (hown : owns p = true) (ho' : (s'.pageData o).isSome) : s'.pageData o = some (p, d) ∧ dGet p s'.files = dGet p s.files ∧ dGet p s.files = some d := by
  have hinv : ProcInv owns s := (ProcInv.started h0).run hmk es hs
  have hinv' := hinv.step hmk e he
  have key : s'.pageData o = some (p, d) := by
    unfold Proc.pageData at *
    cases e with
    | reserve dir => cases he; exact ho
    | create dir d => cases he; simp only [Proc.newObj]; rw [dGet_app, ho]; rfl
    | write q d =>
      simp only [Proc.step] at he
      split at he
      · simp at he
      · cases he; exact ho
    | foreignRemove q =>
      simp only [Proc.step] at he
      split at he
      · simp at he
      · cases he; exact ho
    | adopt q =>
      simp only [Proc.step] at he
      split at he
      · simp at he
      · cases he; simp only [Proc.newObj]; rw [dGet_app, ho]; rfl
    | newCol ids =>
      simp only [Proc.step] at he
      split at he
      · cases he; exact ho
      · simp at he
    | setCol k ids =>
      simp only [Proc.step] at he
      split at he
      · cases he; exact ho
      · simp at he
    | collect x =>
      simp only [Proc.step] at he
      split at he
      · simp at he
      · rename_i q d' hq
        split at he
        · simp at he
        · cases he
          have hobjs : ({ s with objs := dDel x s.objs }.del owns q : Proc P D).objs = dDel x s.objs := by
            unfold Proc.del; split
            · rfl
            · dsimp only; split <;> rfl
          rw [hobjs] at ho' ⊢
          rw [dGet_del] at ho' ⊢
          by_cases hx : o = x
          · rw [if_pos hx] at ho'; simp at ho'
          · rw [if_neg hx]; exact ho
  have f1 := hinv.files _ (dGet_some_mem _ _ _ ho) hown
  have f2 := hinv'.files _ (dGet_some_mem _ _ _ key) hown
  exact ⟨key, by rw [f1, f2], f1⟩

/-- **C22c** when the last page object with a path of this process is collected, the file is removed and the path is forgotten by the
reference counts; as long as another object (a second unpickled copy, say) uses the path, the file stays. -/
theorem C22_removed (mk : Δ → Nat → P) (hmk : ∀ dir, Function.Injective (mk dir)) (owns : P → Bool) (s0 s s' : Proc P D) (h0 : s0.Started)
    (es : List (Ev P D Δ)) (hs : s0.run mk owns es = some s) (o : Nat) (p : P) (d : D) (ho : s.pageData o = some (p, d)) (hown : owns p = true)
    (he : s.step mk owns (.collect o) = some s') :
    ((∃ o' d', o' ≠ o ∧ s.pageData o' = some (p, d')) → dGet p s'.files = some d) ∧
      ((¬ ∃ o' d', o' ≠ o ∧ s.pageData o' = some (p, d')) → dGet p s'.files = none) ∧
      dGet p s'.refcounts = (if s'.live p = 0 then none else some (s'.live p)) ∧ s'.live p + 1 = s.live p := by
  have hinv : ProcInv owns s := (ProcInv.started h0).run hmk es hs
  have hinv' := hinv.step hmk _ he
  unfold Proc.pageData at ho ⊢
  have hfile := hinv.files _ (dGet_some_mem _ _ _ ho) hown
  have hcnt := countP_del s.objs hinv.nodup o p d (dGet_some_mem _ _ _ ho) p
  have hrc := hinv.counts p hown
  simp only [Proc.step, ho] at he
  split at he
  · simp at he
  · cases he
    have hobjs : ({ s with objs := dDel o s.objs }.del owns p : Proc P D).objs = dDel o s.objs := by
      unfold Proc.del; split
      · rfl
      · dsimp only; split <;> rfl
    have hlive : ({ s with objs := dDel o s.objs }.del owns p : Proc P D).live p + 1 = s.live p := by
      unfold Proc.live; rw [hobjs]; simpa using hcnt
    refine ⟨fun hex => ?_, fun hex => ?_, hinv'.counts p hown, hlive⟩
    · obtain ⟨o', d', hne, hg⟩ := hex
      have hg' : dGet o' ({ s with objs := dDel o s.objs }.del owns p : Proc P D).objs = some (p, d') := by
        rw [hobjs, dGet_del, if_neg hne]; exact hg
      have := hinv'.files _ (dGet_some_mem _ _ _ hg') hown
      have h2 := hinv.files _ (dGet_some_mem _ _ _ hg) hown
      dsimp only at this h2 hfile
      rw [this, ← h2, hfile]
    · have hl1 : s.live p = 1 := by
        have h0 : (dDel o s.objs).countP (fun e => decide (e.2.1 = p)) = 0 := by
          rw [List.countP_eq_zero]
          intro e he' hep
          apply hex
          have hemem := List.mem_filter.1 he'
          refine ⟨e.1, e.2.2, by simpa using hemem.2, ?_⟩
          have := dGet_mem_nodup s.objs hinv.nodup e.1 e.2 hemem.1
          rw [this]
          have hh : e.2.1 = p := by simpa using hep
          rw [← hh]
        rw [h0] at hcnt
        simp only [if_true] at hcnt
        unfold Proc.live; omega
      have hrc1 : (dGet p s.refcounts).getD 0 = 1 := by rw [hrc, hl1]; rfl
      simp only [Proc.del, hown, Bool.not_true, Bool.false_eq_true, if_false, hrc1]
      simp only [Nat.sub_self, Nat.max_self, gt_iff_lt, Nat.lt_irrefl, if_false]
      rw [dGet_del, if_pos rfl]

/-- **C22d** a new page gets a path at which there is no file, also in the presence of files written by other code; the numbers given out
grow, so no name is given out twice; afterwards the file holds the data and exactly one object refers to it -/
theorem C22_fresh (mk : Δ → Nat → P) (hmk : ∀ dir, Function.Injective (mk dir)) (owns : P → Bool) (s0 s s' : Proc P D) (h0 : s0.Started)
    (es : List (Ev P D Δ)) (hs : s0.run mk owns es = some s) (dir : Δ) (d : D) (he : s.step mk owns (.create dir d) = some s') :
    ∃ n, s.nextId ≤ n ∧ s'.nextId = n + 1 ∧ dGet (mk dir n) s.files = none ∧ s'.pageData s.nextObj = some (mk dir n, d) ∧
      (∀ p, dGet p s'.files = if p = mk dir n then some d else dGet p s.files) ∧ (owns (mk dir n) = true → s'.live (mk dir n) = 1) := by
  have hinv : ProcInv owns s := (ProcInv.started h0).run hmk es hs
  cases he
  have hfresh := nextIdLoop_fresh (mk dir) (hmk dir) s.files s.nextId
  refine ⟨nextIdLoop (mk dir) s.files (s.files.length + 1) s.nextId, nextIdLoop_ge _ _ _ _, rfl, hfresh, ?_, ?_, ?_⟩
  · unfold Proc.pageData
    simp only [Proc.newObj]
    rw [dGet_app]
    have : dGet s.nextObj s.objs = none := by
      cases hg : dGet s.nextObj s.objs with
      | none => rfl
      | some v => exact absurd (hinv.bound _ (dGet_some_mem _ _ _ hg)) (by simp)
    rw [this]; simp [dGet]
  · intro p
    simp only [Proc.newObj]
    rw [dGet_upd]
  · intro hown
    have hzero : s.live (mk dir (nextIdLoop (mk dir) s.files (s.files.length + 1) s.nextId)) = 0 := by
      unfold Proc.live
      rw [List.countP_eq_zero]
      intro e he' hep
      have hh : e.2.1 = mk dir (nextIdLoop (mk dir) s.files (s.files.length + 1) s.nextId) := by simpa using hep
      have := hinv.files e he' (hh ▸ hown)
      rw [hh, hfresh] at this
      simp at this
    unfold Proc.live at hzero ⊢
    simp only [Proc.newObj, List.countP_append, hzero, List.countP_cons, List.countP_nil]
    simp

/-- **C22e** numbers given out never go back -/
theorem C22_ids_grow (mk : Δ → Nat → P) (owns : P → Bool) (s s' : Proc P D) (es : List (Ev P D Δ)) (hs : s.run mk owns es = some s') :
    s.nextId ≤ s'.nextId := by
  induction es generalizing s with
  | nil => cases hs; exact Nat.le_refl _
  | cons e es ih =>
    simp only [Proc.run] at hs
    cases h1 : s.step mk owns e with
    | none => simp [h1] at hs
    | some s1 =>
      rw [h1] at hs
      refine Nat.le_trans ?_ (ih s1 hs)
      cases e with
      | reserve dir => cases h1; have := nextIdLoop_ge (mk dir) s.files (s.files.length + 1) s.nextId; simp only; omega
      | create dir d => cases h1; have := nextIdLoop_ge (mk dir) s.files (s.files.length + 1) s.nextId; simp only [Proc.newObj]; omega
      | write q d => simp only [Proc.step] at h1; split at h1 <;> simp at h1; subst h1; exact Nat.le_refl _
      | foreignRemove q => simp only [Proc.step] at h1; split at h1 <;> simp at h1; subst h1; exact Nat.le_refl _
      | adopt q => simp only [Proc.step] at h1; split at h1 <;> simp at h1; subst h1; exact Nat.le_refl _
      | newCol ids => simp only [Proc.step] at h1; split at h1 <;> simp at h1; subst h1; exact Nat.le_refl _
      | setCol k ids => simp only [Proc.step] at h1; split at h1 <;> simp at h1; subst h1; exact Nat.le_refl _
      | collect x =>
        simp only [Proc.step] at h1
        split at h1
        · simp at h1
        · split at h1
          · simp at h1
          · cases h1
            unfold Proc.del
            split
            · exact Nat.le_refl _
            · dsimp only; split <;> exact Nat.le_refl _

/-- the number `next_id` returns in a state, base.py:94-105 -/
def Proc.given (mk : Δ → Nat → P) (s : Proc P D) (dir : Δ) : Nat := nextIdLoop (mk dir) s.files (s.files.length + 1) s.nextId

/-- **C22f** a number given out, for a page or for a name that Nim code fills later, is never given out again: whatever happens in between, every
later number is greater; and at the time it is given out no file has that name -/
theorem C22_numbers_once (mk : Δ → Nat → P) (hmk : ∀ dir, Function.Injective (mk dir)) (owns : P → Bool) (s s1 s2 : Proc P D) (dir dir' : Δ) (e : Ev P D Δ)
    (he : e = .reserve dir ∨ ∃ d, e = .create dir d) (h1 : s.step mk owns e = some s1) (es : List (Ev P D Δ)) (h2 : s1.run mk owns es = some s2) :
    s.given mk dir < s2.given mk dir' ∧ dGet (mk dir (s.given mk dir)) s.files = none := by
  have hn : s1.nextId = s.given mk dir + 1 := by
    rcases he with rfl | ⟨d, rfl⟩ <;> cases h1 <;> rfl
  have h3 := C22_ids_grow mk owns s1 s2 es h2
  have h4 := nextIdLoop_ge (mk dir') s2.files (s2.files.length + 1) s2.nextId
  refine ⟨?_, nextIdLoop_fresh (mk dir) (hmk dir) s.files s.nextId⟩
  unfold Proc.given at hn ⊢
  omega

example : (({} : Proc Nat Nat).given (fun (_ : Unit) n => n) ()) = 1 := by decide

/-- a history meeting the hypotheses: a file of an earlier run stands at the first name; two pages are created, one is unpickled a second time,
shared by two columns, dropped and collected -/
example : (({ files := [((0, 1), 7)], nextId := 1 } : Proc (Nat × Nat) Nat).run (fun (dir : Nat) n => (dir, n)) (fun p => p.1 == 0)
      [.create 0 5, .newCol [0], .adopt (0, 2), .newCol [0, 1], .create 0 6, .setCol 0 [2], .setCol 1 [1], .collect 0]).map
      (fun s => (s.files, s.refcounts, s.cols)) = some ([((0, 1), 7), ((0, 2), 5), ((0, 3), 6)], [((0, 2), 1), ((0, 3), 1)], [[2], [1]]) := by
  decide

example : (({ files := [((0, 1), 7)], nextId := 1 } : Proc (Nat × Nat) Nat).run (fun (dir : Nat) n => (dir, n)) (fun p => p.1 == 0)
      [.create 0 5, .newCol [0], .setCol 0 [], .collect 0]).map (fun s => (s.files, s.refcounts, s.cols)) = some ([((0, 1), 7)], [], [[]]) := by
  decide

end

end Tablite
