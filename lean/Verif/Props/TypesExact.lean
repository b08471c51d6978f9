import Mathlib.Data.List.Forall2
import Verif.Props.Isolation
/-!
# C12 exactly for `del column[i]` and `remove_all`
-/

namespace Tablite

section
variable {α τ : Type} [DecidableEq α] [DecidableEq τ] (ty : α → τ)

/-- `del column[i]` and `remove_all` -/
def ColOp.drops : ColOp α → Prop
  | .delInt _ => True
  | .removeAll _ => True
  | _ => False

/-- a slot that keeps a page, or holds a part of its values with its dictionary -/
inductive DropSlot : Ref α → Plan α → Prop
  | keep (r : Ref α) : DropSlot r (.keep r)
  | stale (r : Ref α) (d : List α) : d.Sublist r.data → DropSlot r (.stale r d)

omit [DecidableEq α] in
theorem planDelInt_drop (key : Int) (s : Int) (rs : List (Ref α)) (pl : List (Plan α)) (h : planDelInt key s rs = .ok pl) :
    List.Forall₂ DropSlot rs pl := by
  induction rs generalizing s pl with
  | nil =>
    simp only [planDelInt] at h
    injection h with h
    subst h
    exact .nil
  | cons r rs ih =>
    simp only [planDelInt, bind, Except.bind] at h
    cases hm : planDelInt key (s + r.data.length) rs with
    | error e =>
      rw [hm] at h
      dsimp only at h
      split at h
      · split at h <;> exact absurd h (by simp)
      · exact absurd h (by simp)
    | ok more =>
      rw [hm] at h
      dsimp only at h
      split at h
      · split at h
        · injection h with h
          subst h
          exact .cons (.stale r _ (List.eraseIdx_sublist ..)) (ih _ _ hm)
        · exact absurd h (by simp)
      · injection h with h
        subst h
        exact .cons (.keep r) (ih _ _ hm)

theorem plan_drop (ps : Nat) (others : Nat → List (Ref α)) (rs : List (Ref α)) (o : ColOp α) (ho : o.drops) (pl : List (Plan α))
    (h : plan ps others rs o = .ok pl) : List.Forall₂ DropSlot rs pl := by
  cases o with
  | delInt i => exact planDelInt_drop i 0 rs pl h
  | removeAll vs =>
    simp only [plan] at h
    injection h with h
    subst h
    induction rs with
    | nil => exact .nil
    | cons r rs ih =>
      refine .cons ?_ ih
      dsimp only
      split
      · exact .stale r _ List.filter_sublist
      · exact .keep r
  | _ => exact absurd ho (by simp [ColOp.drops])

/-- carrying out such slots adds no dictionary and changes none, and every slot has the dictionary of its page -/
theorem exec_drop (st : Store α τ) (rs : List (Ref α)) (pl : List (Plan α)) (hd : List.Forall₂ DropSlot rs pl) (hv : ∀ r ∈ rs, st.Valid r)
    (st' : Store α τ) (ids' : List Nat) (e : st.exec ty pl = some (st', ids')) :
    st'.dicts = st.dicts ∧ (∀ (i : Nat) p, st.pgs[i]? = some p → st'.pgs[i]? = some p) ∧
      ids'.map st'.dictOf = rs.map fun r => st.dictOf r.id := by
  induction hd generalizing st ids' with
  | nil =>
    simp only [Store.exec, Option.some.injEq, Prod.mk.injEq] at e
    obtain ⟨rfl, rfl⟩ := e
    exact ⟨rfl, fun _ _ h => h, rfl⟩
  | @cons r p rs pl h1 h2 ih =>
    obtain ⟨q, hq1, hq2⟩ := hv r List.mem_cons_self
    simp only [Store.exec, Option.bind_eq_bind] at e
    cases e1 : st.exec1 ty p with
    | none => rw [e1] at e; exact absurd e (by simp)
    | some x =>
      obtain ⟨st1, i⟩ := x
      rw [e1] at e
      simp only [Option.bind_some] at e
      cases e2 : Store.exec ty st1 pl with
      | none => rw [e2] at e; exact absurd e (by simp)
      | some y =>
        obtain ⟨st2, is⟩ := y
        rw [e2] at e
        simp only [Option.bind_some, Option.some.injEq, Prod.mk.injEq] at e
        obtain ⟨rfl, rfl⟩ := e
        have key : st1.dicts = st.dicts ∧ (∀ (i : Nat) p, st.pgs[i]? = some p → st1.pgs[i]? = some p) ∧ st1.dictOf i = st.dictOf r.id ∧ ∃ q', st1.pgs[i]? = some q' := by
          cases h1 with
          | keep =>
            simp only [Store.exec1, Option.some.injEq, Prod.mk.injEq] at e1
            obtain ⟨rfl, rfl⟩ := e1
            exact ⟨rfl, fun _ _ h => h, rfl, q, hq1⟩
          | stale d hs =>
            simp only [Store.exec1, hq1, Option.bind_eq_bind, Option.bind_some, Store.newPageSharing, Option.some.injEq, Prod.mk.injEq] at e1
            obtain ⟨rfl, rfl⟩ := e1
            refine ⟨rfl, ?_, ?_, ⟨d, q.dref⟩, by simp⟩
            · intro j p hj
              have := (List.getElem?_eq_some_iff.1 hj).1
              rw [List.getElem?_append_left this]
              exact hj
            · simp [Store.dictOf, hq1]
        obtain ⟨k1, k2, k3, q', k4⟩ := key
        obtain ⟨g1, g2, g3⟩ := ih st1 (fun r' hr' => by
          obtain ⟨p, h1, h2⟩ := hv r' (List.mem_cons_of_mem _ hr')
          exact ⟨p, k2 _ _ h1, h2⟩) is e2
        have hdict : ∀ r' ∈ rs, st1.dictOf r'.id = st.dictOf r'.id := by
          intro r' hr'
          obtain ⟨p, h1, -⟩ := hv r' (List.mem_cons_of_mem _ hr')
          unfold Store.dictOf
          simp only [Option.bind_eq_bind, h1, k2 _ _ h1, Option.bind_some, k1]
        refine ⟨g1.trans k1, fun j p hj => g2 _ _ (k2 _ _ hj), ?_⟩
        rw [List.map_cons, List.map_cons, g3, List.map_congr_left hdict, ← k3]
        congr 1
        unfold Store.dictOf
        simp only [Option.bind_eq_bind, k4, g2 _ _ k4, Option.bind_some, g1]

omit [DecidableEq α] [DecidableEq τ] in
theorem load_ids (st : Store α τ) (ids : List Nat) (hv : ∀ i ∈ ids, ∃ p, st.pgs[i]? = some p) : (st.load ids).map Ref.id = ids := by
  induction ids with
  | nil => rfl
  | cons i is ih =>
    obtain ⟨p, hp⟩ := hv i List.mem_cons_self
    have := ih fun j hj => hv j (List.mem_cons_of_mem _ hj)
    unfold Store.load at this ⊢
    rw [List.filterMap_cons, hp]
    simp only [Option.map_some, List.map_cons, this]

/-- what the two operations do with the counts and the values -/
theorem step_drop (ps : Nat) (w : World α τ) (hwf : w.WF) (c : Nat) (o : ColOp α) (ho : o.drops) :
    ∃ w', w.step ty ps (.op c o) = some w' ∧ w'.WF ∧ (∀ d, w'.types d = w.types d) ∧ (colIter (w'.pages c)).Sublist (colIter (w.pages c)) := by
  obtain ⟨w', h1, h2, -, -⟩ := C08_step_isolated ty ps w hwf (.op c o)
  refine ⟨w', h1, h2, ?_⟩
  simp only [World.step] at h1
  cases hc : w.cols[c]? with
  | none =>
    rw [hc] at h1
    injection h1 with h1
    subst h1
    exact ⟨fun _ => rfl, List.Sublist.refl _⟩
  | some ids =>
    rw [hc] at h1
    dsimp only at h1
    generalize hp : plan ps _ (w.st.load ids) o = pr at h1
    cases pr with
    | error e =>
      injection h1 with h1
      subst h1
      exact ⟨fun _ => rfl, List.Sublist.refl _⟩
    | ok pl =>
      dsimp only at h1
      have hdrop := plan_drop ps _ _ o ho pl hp
      have hvs := load_valid w.st ids
      have hids := hwf.2 ids (List.mem_of_getElem? hc)
      have hrefs : ∀ p ∈ pl, p.RefsIn w.st.Valid := by
        intro p hpm
        clear h1 hp
        generalize w.st.load ids = rs at hdrop hvs
        induction hdrop with
        | nil => cases hpm
        | @cons r q rs pl h1 h2 ih =>
          rcases List.mem_cons.1 hpm with rfl | hpm
          · cases h1 with
            | keep => exact hvs r List.mem_cons_self
            | stale d _ => exact hvs r List.mem_cons_self
          · exact ih hpm fun r' hr' => hvs r' (List.mem_cons_of_mem _ hr')
      obtain ⟨st', ids', e1, -, -, e4, -⟩ := exec_spec ty w.st hwf.1 pl hrefs
      obtain ⟨g1, g2, g3⟩ := exec_drop ty w.st _ pl hdrop hvs st' ids' e1
      simp only [e1, Option.bind_eq_bind, Option.bind_some, Option.some.injEq] at h1
      subst h1
      have hlt := (List.getElem?_eq_some_iff.1 hc).1
      constructor
      · intro d
        funext t
        unfold World.types
        dsimp only
        by_cases hdc : d = c
        · subst hdc
          rw [List.getElem?_set_self hlt, hc]
          dsimp only
          have h5 : (ids'.map fun i => match st'.dictOf i with | some d => d t | none => 0) = (ids'.map st'.dictOf).map fun x => match x with | some d => d t | none => 0 := by
            rw [List.map_map]; rfl
          have h6 : (ids.map fun i => match w.st.dictOf i with | some d => d t | none => 0) = (ids.map w.st.dictOf).map fun x => match x with | some d => d t | none => 0 := by
            rw [List.map_map]; rfl
          have h7 : ids'.map st'.dictOf = ids.map w.st.dictOf := by
            rw [g3]
            conv_rhs => rw [← load_ids w.st ids hids]
            rw [List.map_map]
            rfl
          exact congrArg List.sum (h5.trans ((congrArg _ h7).trans h6.symm))
        · rw [List.getElem?_set_ne (fun h => hdc h.symm)]
          cases hd : w.cols[d]? with
          | none => rfl
          | some js =>
            dsimp only
            congr 1
            apply List.map_congr_left
            intro i hi
            obtain ⟨p, hp⟩ := hwf.2 js (List.mem_of_getElem? hd) i hi
            have : st'.dictOf i = w.st.dictOf i := by
              unfold Store.dictOf
              simp only [Option.bind_eq_bind, hp, g2 _ _ hp, Option.bind_some, g1]
            rw [this]
      · unfold World.pages
        dsimp only
        rw [List.getElem?_set_self hlt, hc]
        dsimp only
        rw [e4, colIter_eq, colIter_eq]
        clear e4 e1 g1 g2 g3 hrefs hvs hp h2 hids
        generalize w.st.load ids = rs at hdrop
        induction hdrop with
        | nil => exact List.Sublist.refl _
        | @cons r q rs pl h1 h2 ih =>
          rw [List.map_cons, List.map_cons, List.flatten_cons, List.flatten_cons]
          refine List.Sublist.append ?_ ih
          cases h1 with
          | keep => exact List.Sublist.refl _
          | stale d hs => exact hs

omit [DecidableEq α] in
theorem sublist_counts {l l' : List α} (h : l'.Sublist l) (e : typeCounts ty l = typeCounts ty l') : l' = l := by
  induction h with
  | slnil => rfl
  | @cons l' l a h ih =>
    exfalso
    have h1 := congrFun e (ty a)
    simp only [typeCounts, List.countP_cons, decide_true, if_true] at h1
    have h2 := h.countP_le (p := fun v => decide (ty v = ty a))
    omega
  | @cons_cons l' l a h ih =>
    rw [ih (by
      funext t
      have h1 := congrFun e t
      simp only [typeCounts, List.countP_cons] at h1 ⊢
      omega)]

/-- **C12** (effect of `del column[i]` and `remove_all`).  They change `types()` of no column, whatever they delete. -/
theorem C12_drop_effect (ps : Nat) (w : World α τ) (hwf : w.WF) (c : Nat) (o : ColOp α) (ho : o.drops) :
    ∃ w', w.step ty ps (.op c o) = some w' ∧ w'.WF ∧ ∀ d, w'.types d = w.types d := by
  obtain ⟨w', h1, h2, h3, -⟩ := step_drop ty ps w hwf c o ho
  exact ⟨w', h1, h2, h3⟩

/-- **C12** (exact for `del column[i]` and `remove_all`).  If the counts of a column are right before, they are right afterwards exactly when the
operation deleted nothing. -/
theorem C12_drop_exact (ps : Nat) (w : World α τ) (hwf : w.WF) (c : Nat) (o : ColOp α) (ho : o.drops)
    (ht : w.types c = typeCounts ty (colIter (w.pages c))) :
    ∃ w', w.step ty ps (.op c o) = some w' ∧ (w'.types c = typeCounts ty (colIter (w'.pages c)) ↔ colIter (w'.pages c) = colIter (w.pages c)) := by
  obtain ⟨w', h1, -, h3, h4⟩ := step_drop ty ps w hwf c o ho
  refine ⟨w', h1, ?_⟩
  rw [h3, ht]
  constructor
  · exact fun e => sublist_counts ty h4 e
  · intro e; rw [e]

/-- a column with right counts from which a value is deleted -/
example : ∃ w, ({} : World IntOrStr Bool).run tyIS 2 [.new [.inl 1, .inr 2, .inl 3]] = some w ∧ w.WF ∧
    w.types 0 = typeCounts tyIS (colIter (w.pages 0)) ∧
    ((w.step tyIS 2 (.op 0 (.delInt 1))).map fun w => (w.types 0 true, w.types 0 false, colIter (w.pages 0))) = some (2, 1, [.inl 1, .inl 3]) := by
  obtain ⟨w', h1, h2, h3⟩ := C12_types_history_partial tyIS 2 ({} : World IntOrStr Bool) World.wf_empty (Store.truth_empty tyIS)
    [.new [.inl 1, .inr 2, .inl 3]] (by simp [Cmd.countSafe])
  refine ⟨w', h1, h2, h3 0, ?_⟩
  have : ({} : World IntOrStr Bool).run tyIS 2 [.new [.inl 1, .inr 2, .inl 3]] = some w' := h1
  have e : ((({} : World IntOrStr Bool).run tyIS 2 [.new [.inl 1, .inr 2, .inl 3]]).bind fun w => (w.step tyIS 2 (.op 0 (.delInt 1))).map fun w =>
      (w.types 0 true, w.types 0 false, colIter (w.pages 0))) = some (2, 1, [.inl 1, .inl 3]) := by decide
  rw [this] at e
  exact e

end

end Tablite
