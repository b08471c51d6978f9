import Verif.Lemmas.Store
import Verif.Props.ColumnWrite
/-!
# C08 isolation of copies, C12 truthfulness of type counts
-/

namespace Tablite

section
variable {α τ : Type} [DecidableEq α] [DecidableEq τ] (ty : α → τ)

/-! ## C08 -/

/-- what a step may change: only the targeted column; `new`/`copy` append a column -/
def Cmd.touches {α} : Cmd α → Nat → Prop
  | .op c _, d => c = d
  | _, _ => False

/-- One step from a well-formed state: it succeeds, keeps well-formedness, and an operation on column `c` makes `c` hold exactly what the
page-level operation computes, or leaves it unchanged if that raises. -/
theorem C08_step_refines (ps : Nat) (w : World α τ) (hwf : w.WF) (c : Nat) (o : ColOp α) (hc : c < w.cols.length) :
    ∃ w', w.step ty ps (.op c o) = some w' ∧ w'.WF ∧ w'.cols.length = w.cols.length ∧
      w'.pages c = (match opPages ps w.pages (w.pages c) o with | .ok p => p | .error _ => w.pages c) ∧
      ∀ d, d ≠ c → w'.pages d = w.pages d := by
  obtain ⟨hst, hcols⟩ := hwf
  have hids : w.cols[c]? = some w.cols[c] := List.getElem?_eq_getElem hc
  have hcv : ∀ (d : Nat) (ids : List Nat), w.cols[d]? = some ids → ∀ i ∈ ids, ∃ p, w.st.pgs[i]? = some p := by
    intro d ids h
    exact hcols ids (List.mem_of_getElem? h)
  have hpages : (fun d => ((fun d => match w.cols[d]? with | some js => w.st.load js | none => []) d).map Ref.data) = w.pages := by
    funext d
    simp only [World.pages]
    cases w.cols[d]? <;> rfl
  have hdata := plan_data ps (fun d => match w.cols[d]? with | some js => w.st.load js | none => []) (w.st.load w.cols[c]) o
  rw [hpages] at hdata
  have hpc : w.pages c = (w.st.load w.cols[c]).map Ref.data := by simp only [World.pages, hids]
  rw [← hpc] at hdata
  simp only [World.step, hids]
  cases hplan : plan ps (fun d => match w.cols[d]? with | some js => w.st.load js | none => []) (w.st.load w.cols[c]) o with
  | error e =>
    rw [hplan] at hdata
    simp only [Except.map] at hdata
    exact ⟨w, rfl, ⟨hst, hcols⟩, rfl, by rw [← hdata], fun _ _ => rfl⟩
  | ok pl =>
    rw [hplan] at hdata
    simp only [Except.map] at hdata
    have hrefs := plan_refs ps _ _ o w.st.Valid (load_valid w.st w.cols[c]) (by
      intro d r hr
      cases hd : w.cols[d]? with
      | none => simp [hd] at hr
      | some js => simp only [hd] at hr; exact load_valid _ _ r hr) pl hplan
    obtain ⟨st', ids', e1, w1, x1, d1, v1⟩ := exec_spec ty w.st hst pl hrefs
    simp only [e1, Option.bind_eq_bind, Option.bind_some]
    refine ⟨_, rfl, ⟨w1, ?_⟩, by simp, ?_, ?_⟩
    · intro ids hm i hi
      rcases List.mem_or_eq_of_mem_set hm with hm | rfl
      · obtain ⟨p, hp⟩ := hcols ids hm i hi
        exact ⟨p, x1.1 _ _ hp⟩
      · exact v1 i hi
    · rw [← hdata]
      simp only [World.pages, List.getElem?_set_self hc]
      exact d1
    · intro d hd
      simp only [World.pages, List.getElem?_set_ne (Ne.symm hd)]
      cases hcd : w.cols[d]? with
      | none => rfl
      | some js => simp only; rw [load_extends x1 js (hcv d js hcd)]

/-- C08, one step: no step changes the values of a column it does not target; the step always succeeds. -/
theorem C08_step_isolated (ps : Nat) (w : World α τ) (hwf : w.WF) (cmd : Cmd α) :
    ∃ w', w.step ty ps cmd = some w' ∧ w'.WF ∧ w.cols.length ≤ w'.cols.length ∧
      ∀ d, d < w.cols.length → ¬ cmd.touches d → w'.pages d = w.pages d := by
  cases cmd with
  | op c o =>
    by_cases hc : c < w.cols.length
    · obtain ⟨w', h1, h2, h3, _, h5⟩ := C08_step_refines ty ps w hwf c o hc
      exact ⟨w', h1, h2, by omega, fun d _ hd => h5 d (fun e => hd e.symm)⟩
    · refine ⟨w, ?_, hwf, Nat.le_refl _, fun _ _ _ => rfl⟩
      simp [World.step, List.getElem?_eq_none (Nat.le_of_not_lt hc)]
  | copy c =>
    simp only [World.step]
    cases hc : w.cols[c]? with
    | none => exact ⟨w, rfl, hwf, Nat.le_refl _, fun _ _ _ => rfl⟩
    | some ids =>
      refine ⟨_, rfl, ⟨hwf.1, ?_⟩, by simp, ?_⟩
      · intro js hj i hi
        rcases List.mem_append.1 hj with h | h
        · exact hwf.2 js h i hi
        · simp only [List.mem_singleton] at h
          subst h
          exact hwf.2 js (List.mem_of_getElem? hc) i hi
      · intro d hd _
        simp only [World.pages]
        rw [List.getElem?_append_left hd]
  | new v =>
    simp only [World.step]
    obtain ⟨st', ids', e1, w1, x1, d1, v1⟩ := exec_spec ty w.st hwf.1 ((paginate ps v).map .fresh) (fresh_refs _ _)
    simp only [e1, Option.bind_eq_bind, Option.bind_some]
    refine ⟨_, rfl, ⟨w1, ?_⟩, by simp, ?_⟩
    · intro js hj i hi
      rcases List.mem_append.1 hj with h | h
      · obtain ⟨p, hp⟩ := hwf.2 js h i hi
        exact ⟨p, x1.1 _ _ hp⟩
      · simp only [List.mem_singleton] at h
        subst h
        exact v1 i hi
    · intro d hd _
      simp only [World.pages]
      rw [List.getElem?_append_left hd, List.getElem?_eq_getElem hd]
      simp only
      rw [load_extends x1]
      exact fun i hi => hwf.2 _ (List.getElem_mem hd) i hi

/-- C08: over every history of steps (creations, copies, assignments, deletions, extends, repeats, replaces on any columns) the values of a
column that is never targeted stay the same. -/
theorem C08_history_isolated (ps : Nat) (w : World α τ) (hwf : w.WF) (cmds : List (Cmd α)) (d : Nat) (hd : d < w.cols.length)
    (hno : ∀ c ∈ cmds, ¬ c.touches d) :
    ∃ w', w.run ty ps cmds = some w' ∧ w'.WF ∧ colIter (w'.pages d) = colIter (w.pages d) := by
  induction cmds generalizing w with
  | nil => exact ⟨w, rfl, hwf, rfl⟩
  | cons c cs ih =>
    obtain ⟨w1, h1, h2, h3, h4⟩ := C08_step_isolated ty ps w hwf c
    obtain ⟨w2, k1, k2, k3⟩ := ih w1 h2 (by omega) (fun c' hc' => hno c' (by simp [hc']))
    refine ⟨w2, ?_, k2, ?_⟩
    · simp [World.run, h1, k1]
    · rw [k3, h4 d hd (hno c (by simp))]

/-- C08: a copy reads like the original, and after any history that only works on the original (and on further columns) the copy still
does; symmetrically for the original. -/
theorem C08_copy (ps : Nat) (w : World α τ) (hwf : w.WF) (c : Nat) (hc : c < w.cols.length) (cmds : List (Cmd α)) :
    ∃ w1, w.step ty ps (.copy c) = some w1 ∧ w1.pages w.cols.length = w.pages c ∧
      ((∀ x ∈ cmds, ¬ x.touches w.cols.length) → ∃ w2, w1.run ty ps cmds = some w2 ∧ colIter (w2.pages w.cols.length) = colIter (w.pages c)) ∧
      ((∀ x ∈ cmds, ¬ x.touches c) → ∃ w2, w1.run ty ps cmds = some w2 ∧ colIter (w2.pages c) = colIter (w.pages c)) := by
  obtain ⟨w1, h1, h2, h3, h4⟩ := C08_step_isolated ty ps w hwf (.copy c)
  have hids : w.cols[c]? = some w.cols[c] := List.getElem?_eq_getElem hc
  have e : w1 = { w with cols := w.cols ++ [w.cols[c]] } := by
    simp only [World.step, hids] at h1
    exact (Option.some.inj h1).symm
  have hp : w1.pages w.cols.length = w.pages c := by
    rw [e]
    simp only [World.pages, List.getElem?_concat_length, hids]
  have hl : w1.cols.length = w.cols.length + 1 := by rw [e]; simp
  refine ⟨w1, h1, hp, ?_, ?_⟩
  · intro hno
    obtain ⟨w2, k1, _, k3⟩ := C08_history_isolated ty ps w1 h2 cmds w.cols.length (by omega) hno
    exact ⟨w2, k1, by rw [k3, hp]⟩
  · intro hno
    obtain ⟨w2, k1, _, k3⟩ := C08_history_isolated ty ps w1 h2 cmds c (by omega) hno
    exact ⟨w2, k1, by rw [k3, h4 c hc (by simp [Cmd.touches])]⟩

omit [DecidableEq α] [DecidableEq τ] in
/-- the empty program state is well-formed (so the theorems above apply to every program) -/
theorem World.wf_empty : ({} : World α τ).WF := ⟨by intro i p h; simp at h, by intro ids h; simp at h⟩

/-! ## C12 -/

/-- the counts of every page in the store are right -/
def Store.Truth (st : Store α τ) : Prop :=
  ∀ (i : Nat) (p : Pg α), st.pgs[i]? = some p → st.dicts[p.dref]? = some (typeCounts ty p.data)

/-- operations that keep the counts right: everything except `del c[i]`, `remove_all` and `replace` -/
def ColOp.countSafe {α} : ColOp α → Prop
  | .delInt _ => False
  | .removeAll _ => False
  | .replace _ => False
  | _ => True

def Cmd.countSafe {α} : Cmd α → Prop
  | .op _ o => o.countSafe
  | _ => True

omit [DecidableEq α] in
theorem bump_typeCounts (l : List α) (k : Nat) (v old : α) (h : l[k]? = some old) :
    bumpCounts (typeCounts ty l) (ty v) (ty old) = typeCounts ty (l.set k v) := by
  funext t
  simp only [bumpCounts, typeCounts]
  induction l generalizing k with
  | nil => simp at h
  | cons a u ih =>
    cases k with
    | zero =>
      simp only [List.getElem?_cons_zero, Option.some.injEq] at h
      subst h
      simp only [List.set_cons_zero, List.countP_cons, decide_eq_true_eq]
      by_cases h1 : t = ty a <;> by_cases h2 : t = ty v <;> simp [h1, h2, eq_comm] <;> grind
    | succ k =>
      simp only [List.getElem?_cons_succ] at h
      have := ih k h
      have hpos : t = ty old → 0 < u.countP (fun x => ty x = t) := by
        intro e
        rw [List.countP_pos_iff]
        exact ⟨old, List.mem_of_getElem? h, by simp [e]⟩
      simp only [List.set_cons_succ, List.countP_cons, decide_eq_true_eq]
      by_cases h1 : t = ty old <;> by_cases h2 : t = ty v <;> simp only [h1, h2, if_true, if_false] at * <;> grind

/-- safe slots keep the store truthful -/
theorem exec1_truth (st : Store α τ) (hwf : st.WF) (ht : st.Truth ty) (p : Plan α) (hp : p.RefsIn st.Valid)
    (hs : ∀ r d, p ≠ .stale r d) (hm : ∀ r m, p ≠ .mutate r m) (st' : Store α τ) (i : Nat) (e : st.exec1 ty p = some (st', i)) :
    st'.Truth ty := by
  have hnew : ∀ (d : List α) (c : τ → Nat), c = typeCounts ty d → (st.newPage d c).1.Truth ty := by
    intro d c hc j q hq
    simp only [Store.newPage] at *
    rw [List.getElem?_append] at hq
    split at hq
    · have := hwf j q hq
      rw [List.getElem?_append_left this]
      exact ht j q hq
    · cases hi : j - st.pgs.length with
      | zero =>
        rw [hi] at hq
        simp only [List.getElem?_cons_zero, Option.some.injEq] at hq
        subst hq
        simp [hc]
      | succ j => rw [hi] at hq; simp at hq
  cases p with
  | keep r => simp only [Store.exec1, Option.some.injEq, Prod.mk.injEq] at e; rw [← e.1]; exact ht
  | fresh d =>
    simp only [Store.exec1, Option.some.injEq] at e
    have := hnew d _ rfl
    rw [e] at this; exact this
  | bump r k v =>
    obtain ⟨⟨q, h1, h2⟩, hk⟩ := hp
    have hd := ht _ _ h1
    simp only [Store.exec1, Store.dictOf, h1, Option.bind_eq_bind, Option.bind_some, hd, List.getElem?_eq_getElem hk,
      Option.some.injEq] at e
    have := hnew (r.data.set k v) (bumpCounts (typeCounts ty q.data) (ty v) (ty r.data[k])) (by
      rw [h2]; exact bump_typeCounts ty r.data k v _ (List.getElem?_eq_getElem hk))
    rw [e] at this; exact this
  | stale r d => exact absurd rfl (hs r d)
  | mutate r m => exact absurd rfl (hm r m)

theorem exec_truth (st : Store α τ) (hwf : st.WF) (ht : st.Truth ty) (pl : List (Plan α)) (hp : ∀ p ∈ pl, p.RefsIn st.Valid)
    (hs : ∀ p ∈ pl, (∀ r d, p ≠ .stale r d) ∧ (∀ r m, p ≠ .mutate r m)) (st' : Store α τ) (ids : List Nat)
    (e : st.exec ty pl = some (st', ids)) : st'.Truth ty := by
  induction pl generalizing st ids with
  | nil => simp only [Store.exec, Option.some.injEq, Prod.mk.injEq] at e; rw [← e.1]; exact ht
  | cons p t ih =>
    obtain ⟨st1, i, e1, w1, x1, _⟩ := exec1_spec ty st hwf p (hp p (by simp))
    have t1 := exec1_truth ty st hwf ht p (hp p (by simp)) (hs p (by simp)).1 (hs p (by simp)).2 st1 i e1
    simp only [Store.exec, e1, Option.bind_eq_bind, Option.bind_some] at e
    cases e2 : Store.exec ty st1 t with
    | none => simp [e2] at e
    | some x =>
      obtain ⟨st2, is⟩ := x
      simp only [e2, Option.bind_some, Option.some.injEq, Prod.mk.injEq] at e
      obtain ⟨rfl, _⟩ := e
      exact ih st1 w1 t1 (fun p' hp' => refsIn_mono (fun r hr => x1.valid hr) (hp p' (by simp [hp']))) (fun p' hp' => hs p' (by simp [hp'])) is e2

/-- a safe operation plans only safe slots -/
def Plan.safe {α} (p : Plan α) : Prop := (∀ r d, p ≠ .stale r d) ∧ (∀ r m, p ≠ .mutate r m)

omit [DecidableEq α] in
theorem keep_safe (l : List (Ref α)) : ∀ p ∈ l.map Plan.keep, p.safe := by
  intro p hp; obtain ⟨q, _, rfl⟩ := List.mem_map.1 hp; constructor <;> (intros; simp)
omit [DecidableEq α] in
theorem fresh_safe (l : List (List α)) : ∀ p ∈ l.map Plan.fresh, p.safe := by
  intro p hp; obtain ⟨q, _, rfl⟩ := List.mem_map.1 hp; constructor <;> (intros; simp)
omit [DecidableEq α] in
theorem append_safe {a b : List (Plan α)} (ha : ∀ p ∈ a, p.safe) (hb : ∀ p ∈ b, p.safe) : ∀ p ∈ a ++ b, p.safe := by
  intro p hp
  rcases List.mem_append.1 hp with h | h
  · exact ha p h
  · exact hb p h

omit [DecidableEq α] in
theorem planSetInt_safe (key : Int) (v : α) (s : Int) (rs : List (Ref α)) : ∀ p ∈ planSetInt key v s rs, p.safe := by
  induction rs generalizing s with
  | nil => simp [planSetInt]
  | cons r t ih =>
    simp only [planSetInt]
    intro p hp
    split at hp
    · rcases List.mem_cons.1 hp with e | e
      · subst e; constructor <;> (intros; simp)
      · exact keep_safe _ p e
    · rcases List.mem_cons.1 hp with e | e
      · subst e; constructor <;> (intros; simp)
      · exact ih _ p e

omit [DecidableEq α] in
theorem planSetExtend_safe (ps : Nat) (key : Int) (v : List α) (done : List (Plan α)) (s : Int) (rs : List (Ref α))
    (hd : ∀ p ∈ done, p.safe) : ∀ p ∈ planSetExtend ps key v done s rs, p.safe := by
  induction rs generalizing s done with
  | nil => exact append_safe hd (fresh_safe [v])
  | cons r t ih =>
    simp only [planSetExtend]
    split
    · exact append_safe hd (fresh_safe _)
    · exact ih _ _ (append_safe hd (keep_safe [r]))

omit [DecidableEq α] in
theorem planSetPrextend_safe (ps : Nat) (b : Int) (v : List α) (s : Int) (rs : List (Ref α))
    (res : List (Plan α)) (e : planSetPrextend ps b v s rs = some res) : ∀ p ∈ res, p.safe := by
  induction rs generalizing s with
  | nil => simp [planSetPrextend] at e
  | cons r t ih =>
    simp only [planSetPrextend] at e
    split at e
    · injection e with e; subst e
      exact append_safe (fresh_safe _) (keep_safe _)
    · exact ih _ e

theorem plan_safe (ps : Nat) (others : Nat → List (Ref α)) (rs : List (Ref α)) (o : ColOp α) (ho : o.countSafe)
    (pl : List (Plan α)) (e : plan ps others rs o = .ok pl) : ∀ p ∈ pl, p.safe := by
  cases o with
  | extend v =>
    simp only [plan] at e; injection e with e; subst e
    exact append_safe (keep_safe _) (fresh_safe _)
  | extendCol o =>
    simp only [plan] at e; injection e with e; subst e
    exact append_safe (keep_safe _) (keep_safe _)
  | clear => simp only [plan] at e; injection e with e; subst e; simp
  | imul n =>
    simp only [plan] at e
    split at e
    · injection e with e; subst e; exact keep_safe _
    · cases e
  | setInt i v =>
    simp only [plan] at e
    generalize (if i < 0 then (colLen (List.map Ref.data rs) : Int) + i else i) = key at e
    split at e
    · injection e with e; subst e; exact planSetInt_safe _ _ _ _
    · cases e
  | delInt i => exact absurd ho (by simp [ColOp.countSafe])
  | removeAll vs => exact absurd ho (by simp [ColOp.countSafe])
  | replace m => exact absurd ho (by simp [ColOp.countSafe])
  | setSlice s v =>
    simp only [plan] at e
    split at e
    · split at e
      · injection e with e; subst e; exact fresh_safe _
      · injection e with e; subst e
        exact planSetExtend_safe _ _ _ _ _ _ (by simp)
      · split at e
        · injection e with e; subst e; exact fresh_safe _
        · split at e
          · rename_i p hp
            injection e with e; subst e
            exact planSetPrextend_safe _ _ _ _ _ _ hp
          · injection e with e; subst e; exact keep_safe _
      · injection e with e; subst e
        exact append_safe (append_safe (keep_safe _) (fresh_safe _)) (keep_safe _)
    · split at e
      · cases e
      · split at e
        · cases e
        · split at e
          · cases e
          · simp only [bind, Except.bind] at e
            split at e
            · cases e
            · injection e with e; subst e
              exact append_safe (append_safe (keep_safe _) (fresh_safe _)) (keep_safe _)
  | delSlice s =>
    simp only [plan] at e
    split at e
    · cases e
    · split at e
      · cases e
      · split at e
        · split at e
          · injection e with e; subst e
            exact append_safe (append_safe (keep_safe _) (fresh_safe _)) (keep_safe _)
          · cases e
        · simp only [bind, Except.bind] at e
          split at e
          · cases e
          · injection e with e; subst e
            exact append_safe (append_safe (keep_safe _) (fresh_safe _)) (keep_safe _)

theorem step_truth (ps : Nat) (w w' : World α τ) (hwf : w.WF) (ht : w.st.Truth ty) (cmd : Cmd α) (hs : cmd.countSafe)
    (e : w.step ty ps cmd = some w') : w'.st.Truth ty := by
  cases cmd with
  | copy c =>
    simp only [World.step] at e
    split at e <;> (injection e with e; subst e; exact ht)
  | new v =>
    simp only [World.step] at e
    obtain ⟨st', ids', e1, _⟩ := exec_spec ty w.st hwf.1 ((paginate ps v).map .fresh) (fresh_refs _ _)
    simp only [e1, Option.bind_eq_bind, Option.bind_some, Option.some.injEq] at e
    subst e
    exact exec_truth ty w.st hwf.1 ht _ (fresh_refs _ _) (fresh_safe _) st' ids' e1
  | op c o =>
    simp only [World.step] at e
    split at e
    · injection e with e; subst e; exact ht
    · rename_i ids hids
      split at e
      · injection e with e; subst e; exact ht
      · rename_i pl hplan
        have hrefs := plan_refs ps _ _ o w.st.Valid (load_valid w.st ids) (by
          intro d r hr
          cases hd : w.cols[d]? with
          | none => simp [hd] at hr
          | some js => simp only [hd] at hr; exact load_valid _ _ r hr) pl hplan
        obtain ⟨st', ids', e1, _⟩ := exec_spec ty w.st hwf.1 pl hrefs
        simp only [e1, Option.bind_eq_bind, Option.bind_some, Option.some.injEq] at e
        subst e
        exact exec_truth ty w.st hwf.1 ht pl hrefs (plan_safe ps _ _ o hs pl hplan) st' ids' e1

omit [DecidableEq α] in
/-- in a truthful store `types()` is right for every column -/
theorem types_of_truth (w : World α τ) (hwf : w.WF) (ht : w.st.Truth ty) (c : Nat) :
    w.types c = typeCounts ty (colIter (w.pages c)) := by
  funext t
  simp only [World.types, World.pages, colIter_eq]
  cases hc : w.cols[c]? with
  | none => simp [typeCounts]
  | some ids =>
    have hv := hwf.2 ids (List.mem_of_getElem? hc)
    simp only
    clear hc
    induction ids with
    | nil => simp [Store.load, typeCounts]
    | cons i is ih =>
      obtain ⟨p, hp⟩ := hv i (by simp)
      have hd := ht i p hp
      simp only [List.map_cons, List.sum_cons, Store.dictOf, hp, Option.bind_eq_bind, Option.bind_some, hd, Store.load,
        List.filterMap_cons, Option.map_some, List.flatten_cons]
      have := ih (fun j hj => hv j (by simp [hj]))
      simp only [Store.dictOf, Option.bind_eq_bind, Store.load] at this
      rw [this]
      simp only [typeCounts, List.countP_append]

/-- C12 (partial): after every history that does not use `del column[i]`, `remove_all` or `replace`, `column.types()` is exactly the number
of values per Python type, for every column.  Missing: those three operations, where the code keeps or shares the old dictionary
(`C12_fails_delete`, `C12_fails_remove_all`, `C12_fails_replace_shared`; `C12_replace_partial` covers unshared pages). -/
theorem C12_types_history_partial (ps : Nat) (w : World α τ) (hwf : w.WF) (ht : w.st.Truth ty) (cmds : List (Cmd α))
    (hs : ∀ c ∈ cmds, c.countSafe) :
    ∃ w', w.run ty ps cmds = some w' ∧ w'.WF ∧ ∀ c, w'.types c = typeCounts ty (colIter (w'.pages c)) := by
  induction cmds generalizing w with
  | nil => exact ⟨w, rfl, hwf, types_of_truth ty w hwf ht⟩
  | cons c cs ih =>
    obtain ⟨w1, h1, h2, h3, h4⟩ := C08_step_isolated ty ps w hwf c
    obtain ⟨w2, k1, k2, k3⟩ := ih w1 h2 (step_truth ty ps w w1 hwf ht c (hs c (by simp)) h1) (fun c' hc' => hs c' (by simp [hc']))
    exact ⟨w2, by simp [World.run, h1, k1], k2, k3⟩

omit [DecidableEq α] in
theorem Store.truth_empty : ({} : Store α τ).Truth ty := by intro i p h; simp at h

/-! ### `replace` on a column whose pages are not shared -/

omit [DecidableEq α] in
theorem foldl_bump (f : α → α) (hs : List α) (d : τ → Nat) (hd : ∀ t, hs.countP (fun x => ty x = t) ≤ d t) (t : τ) :
    hs.foldl (fun d x => bumpCounts d (ty (f x)) (ty x)) d t + hs.countP (fun x => ty x = t) =
      d t + hs.countP (fun x => ty (f x) = t) := by
  induction hs generalizing d with
  | nil => simp
  | cons x u ih =>
    have hb : ∀ t, bumpCounts d (ty (f x)) (ty x) t + (if ty x = t then 1 else 0) = d t + (if ty (f x) = t then 1 else 0) := by
      intro t
      have := hd t
      simp only [List.countP_cons, decide_eq_true_eq] at this
      simp only [bumpCounts]
      have c1 : (t = ty x) ↔ (ty x = t) := eq_comm
      have c2 : (t = ty (f x)) ↔ (ty (f x) = t) := eq_comm
      by_cases h1 : ty x = t <;> by_cases h2 : ty (f x) = t <;> simp only [c1, c2, h1, h2, if_true, if_false] at this ⊢ <;> omega
    have h1 : ∀ t, u.countP (fun x => ty x = t) ≤ bumpCounts d (ty (f x)) (ty x) t := by
      intro t
      have a := hd t
      have b := hb t
      simp only [List.countP_cons, decide_eq_true_eq] at a
      omega
    have h2 := ih _ h1
    have h3 := hb t
    simp only [List.foldl_cons, List.countP_cons, decide_eq_true_eq]
    omega

omit [DecidableEq τ] in
theorem lookup_none_of_not_mem (m : List (α × α)) (x : α) (h : (m.map (·.1)).contains x = false) : m.lookup x = none := by
  induction m with
  | nil => rfl
  | cons p u ih =>
    simp only [List.map_cons, List.contains_cons, Bool.or_eq_false_iff] at h
    rw [List.lookup_cons, h.1]
    exact ih h.2

theorem replace_counts (m : List (α × α)) (data : List α) :
    (data.filter fun x => (m.map (·.1)).contains x).foldl (fun d x => bumpCounts d (ty ((m.lookup x).getD x)) (ty x)) (typeCounts ty data) =
      typeCounts ty (data.map fun x => (m.lookup x).getD x) := by
  funext t
  have h := foldl_bump ty (fun x => (m.lookup x).getD x) (data.filter fun x => (m.map (·.1)).contains x) (typeCounts ty data)
    (by intro t; exact List.Sublist.countP_le (List.filter_sublist)) t
  have hsplit : ∀ g : α → τ, data.countP (fun x => g x = t) =
      (data.filter fun x => (m.map (·.1)).contains x).countP (fun x => g x = t) +
      (data.filter fun x => !(m.map (·.1)).contains x).countP (fun x => g x = t) := by
    intro g
    simp only [List.countP_filter]
    induction data with
    | nil => rfl
    | cons a u ih =>
      have := ih (foldl_bump ty (fun x => (m.lookup x).getD x) (u.filter fun x => (m.map (·.1)).contains x) (typeCounts ty u)
        (by intro t; exact List.Sublist.countP_le (List.filter_sublist)) t)
      simp only [List.countP_cons, this]
      by_cases hg : g a = t <;> cases hc : (m.map (·.1)).contains a <;> simp [hg] <;> omega
  have hsame : (data.filter fun x => !(m.map (·.1)).contains x).countP (fun x => ty ((m.lookup x).getD x) = t) =
      (data.filter fun x => !(m.map (·.1)).contains x).countP (fun x => ty x = t) := by
    apply List.countP_congr
    intro x hx
    have hx' := (List.mem_filter.1 hx).2
    rw [lookup_none_of_not_mem m x (by simpa using hx')]
    simp
  have e1 := hsplit ty
  have e2 := hsplit (fun x => ty ((m.lookup x).getD x))
  simp only [typeCounts, List.countP_map, Function.comp_def] at h ⊢
  omega

/-- the dictionary reference of a page -/
def Store.drefOf (st : Store α τ) (i : Nat) : Option Nat := (st.pgs[i]?).map Pg.dref

/-- page `i` exists and its counts are right -/
def Store.TruthAt (st : Store α τ) (i : Nat) : Prop :=
  ∃ p, st.pgs[i]? = some p ∧ st.dicts[p.dref]? = some (typeCounts ty p.data)

theorem exec_replace (m : List (α × α)) (rs : List (Ref α)) (st st' : Store α τ) (ids : List Nat) (hwf : st.WF)
    (hv : ∀ r ∈ rs, st.Valid r) (hnd : (rs.map fun r => st.drefOf r.id).Nodup) (ht : ∀ r ∈ rs, st.TruthAt ty r.id)
    (e : st.exec ty (rs.map fun r => if r.data.any fun x => (m.map (·.1)).contains x then .mutate r m else .keep r) = some (st', ids)) :
    (∀ i ∈ ids, st'.TruthAt ty i) ∧ (∀ j, some j ∉ (rs.map fun r => st.drefOf r.id) → j < st.dicts.length → st'.dicts[j]? = st.dicts[j]?) := by
  induction rs generalizing st ids with
  | nil =>
    simp only [List.map_nil, Store.exec, Option.some.injEq, Prod.mk.injEq] at e
    obtain ⟨rfl, rfl⟩ := e
    simp
  | cons r u ih =>
    simp only [List.map_cons, Store.exec, Option.bind_eq_bind] at e
    generalize hP : (if r.data.any fun x => (m.map (·.1)).contains x then Plan.mutate r m else .keep r) = P at e
    have hPv : P.RefsIn st.Valid := by
      rw [← hP]; split <;> exact hv r (by simp)
    obtain ⟨st1, i, e1, w1, x1, hd1⟩ := exec1_spec ty st hwf P hPv
    rw [e1] at e
    simp only [Option.bind_some] at e
    cases e2 : Store.exec ty st1 (u.map fun r => if r.data.any fun x => (m.map (·.1)).contains x then Plan.mutate r m else .keep r) with
    | none => simp [e2] at e
    | some x =>
      obtain ⟨st2, is⟩ := x
      simp only [e2, Option.bind_some, Option.some.injEq, Prod.mk.injEq] at e
      obtain ⟨rfl, rfl⟩ := e
      simp only [List.map_cons, List.nodup_cons] at hnd
      obtain ⟨p, hp, hpd⟩ := hv r (by simp)
      have hpt : st.dicts[p.dref]? = some (typeCounts ty p.data) := by
        obtain ⟨p', hp', hq⟩ := ht r (by simp)
        rw [hp] at hp'; injection hp' with h; rw [h]; exact hq
      have hdr : st.drefOf r.id = some p.dref := by simp [Store.drefOf, hp]
      -- the first slot: a truthful page with the same dictionary reference; other dictionaries unchanged
      have key : ∃ q, st1.pgs[i]? = some q ∧ q.dref = p.dref ∧ st1.dicts[q.dref]? = some (typeCounts ty q.data) ∧
          ∀ j, j ≠ p.dref → st1.dicts[j]? = st.dicts[j]? := by
        rw [← hP] at e1
        split at e1
        · simp only [Store.exec1, hp, Option.bind_eq_bind, Option.bind_some, hpt, Store.newPageSharing, Option.some.injEq,
            Prod.mk.injEq] at e1
          obtain ⟨rfl, rfl⟩ := e1
          refine ⟨⟨r.data.map fun x => (m.lookup x).getD x, p.dref⟩, by simp, rfl, ?_, ?_⟩
          · have hl : p.dref < st.dicts.length := hwf _ _ hp
            simp only [List.getElem?_set_self hl, hpd]
            rw [replace_counts]
          · intro j hj
            simp only
            rw [List.getElem?_set_ne (Ne.symm hj)]
        · simp only [Store.exec1, Option.some.injEq, Prod.mk.injEq] at e1
          obtain ⟨rfl, rfl⟩ := e1
          exact ⟨p, hp, rfl, hpt, fun _ _ => rfl⟩
      obtain ⟨q, hq, hqd, hqt, hoth⟩ := key
      have hdr' : ∀ r' ∈ u, st1.drefOf r'.id = st.drefOf r'.id := by
        intro r' hr'
        obtain ⟨p', hp', _⟩ := hv r' (by simp [hr'])
        simp [Store.drefOf, hp', x1.1 _ _ hp']
      have hmapdr : (u.map fun r => st1.drefOf r.id) = u.map fun r => st.drefOf r.id := List.map_congr_left hdr'
      have hne : ∀ r' ∈ u, st.drefOf r'.id ≠ some p.dref := by
        intro r' hr' h
        apply hnd.1
        rw [hdr, ← h]
        exact List.mem_map.2 ⟨r', hr', rfl⟩
      obtain ⟨i1, i2⟩ := ih st1 is w1 (fun r' hr' => x1.valid (hv r' (by simp [hr']))) (by rw [hmapdr]; exact hnd.2) (by
        intro r' hr'
        obtain ⟨p', hp', ht'⟩ := ht r' (by simp [hr'])
        refine ⟨p', x1.1 _ _ hp', ?_⟩
        rw [hoth]
        · exact ht'
        · intro h
          exact hne r' hr' (by simp [Store.drefOf, hp', h])) e2
      have hql : q.dref < st1.dicts.length := w1 _ _ hq
      obtain ⟨st2', ids2', e2', w2', x2', _⟩ := exec_spec ty st1 w1
        (u.map fun r => if r.data.any fun x => (m.map (·.1)).contains x then Plan.mutate r m else .keep r) (by
          intro P' hP'
          obtain ⟨r', hr', rfl⟩ := List.mem_map.1 hP'
          split <;> exact x1.valid (hv r' (by simp [hr'])))
      rw [e2] at e2'
      injection e2' with e2'
      injection e2' with h1 h2
      subst h1
      constructor
      · intro k hk
        rcases List.mem_cons.1 hk with rfl | hk
        · refine ⟨q, x2'.1 _ _ hq, ?_⟩
          rw [i2 q.dref _ hql]
          · exact hqt
          · rw [hmapdr, hqd]
            intro h
            obtain ⟨r', hr', h'⟩ := List.mem_map.1 h
            exact hne r' hr' h'
        · exact i1 k hk
      · intro j hj hjl
        simp only [List.map_cons, List.mem_cons, not_or] at hj
        have hjp : j ≠ p.dref := by intro h; apply hj.1; rw [hdr, h]
        have hjl1 : j < st1.dicts.length := by
          have h1 := hoth j hjp
          rw [List.getElem?_eq_getElem hjl] at h1
          exact (List.getElem?_eq_some_iff.1 h1).1
        rw [i2 j (by rw [hmapdr]; exact hj.2) hjl1, hoth j hjp]

omit [DecidableEq α] in
theorem types_of_truthAt (w : World α τ) (c : Nat) (h : ∀ ids, w.cols[c]? = some ids → ∀ i ∈ ids, w.st.TruthAt ty i) :
    w.types c = typeCounts ty (colIter (w.pages c)) := by
  funext t
  simp only [World.types, World.pages, colIter_eq]
  cases hc : w.cols[c]? with
  | none => simp [typeCounts]
  | some ids =>
    have hv := h ids hc
    simp only
    clear hc
    induction ids with
    | nil => simp [Store.load, typeCounts]
    | cons i is ih =>
      obtain ⟨p, hp, hd⟩ := hv i (by simp)
      simp only [List.map_cons, List.sum_cons, Store.dictOf, hp, Option.bind_eq_bind, Option.bind_some, hd, Store.load,
        List.filterMap_cons, Option.map_some, List.flatten_cons]
      have := ih (fun j hj => hv j (by simp [hj]))
      simp only [Store.dictOf, Option.bind_eq_bind, Store.load] at this
      rw [this]
      simp only [typeCounts, List.countP_append]

/-- C12 (partial), `replace`: if the counts of the column's pages are right and no two of its page slots share a dictionary, then after
`replace` the counts of that column are right, and so are those of every column that has no dictionary in common with it.  Missing: shared
dictionaries (copies, `c *= n`), where the claim is false (`C12_fails_replace_shared`). -/
theorem C12_replace_partial (ps : Nat) (w : World α τ) (hwf : w.WF) (c : Nat) (ids : List Nat) (hc : w.cols[c]? = some ids)
    (m : List (α × α)) (ht : ∀ i ∈ ids, w.st.TruthAt ty i) (hnd : (ids.map w.st.drefOf).Nodup) :
    ∃ w', w.step ty ps (.op c (.replace m)) = some w' ∧ w'.types c = typeCounts ty (colIter (w'.pages c)) ∧
      ∀ d js, d ≠ c → w.cols[d]? = some js → (∀ i ∈ js, w.st.TruthAt ty i) → (∀ i ∈ js, w.st.drefOf i ∉ ids.map w.st.drefOf) →
        w'.types d = typeCounts ty (colIter (w'.pages d)) := by
  have hload : ∀ js, (∀ i ∈ js, ∃ p, w.st.pgs[i]? = some p) → (w.st.load js).map Ref.id = js := by
    intro js hj
    induction js with
    | nil => rfl
    | cons i is ih =>
      obtain ⟨p, hp⟩ := hj i (by simp)
      simp only [Store.load, List.filterMap_cons, hp, Option.map_some, List.map_cons]
      congr 1
      exact ih (fun k hk => hj k (by simp [hk]))
  have hids := hload ids (hwf.2 ids (List.mem_of_getElem? hc))
  have hmap : ((w.st.load ids).map fun r => w.st.drefOf r.id) = ids.map w.st.drefOf := by
    conv => rhs; rw [← hids, List.map_map]
    rfl
  have hval := load_valid w.st ids
  have hpr : ∀ P ∈ ((w.st.load ids).map fun r => if r.data.any fun x => (m.map (·.1)).contains x then Plan.mutate r m else .keep r),
      P.RefsIn w.st.Valid := by
    intro P hP
    obtain ⟨r', hr', rfl⟩ := List.mem_map.1 hP
    split <;> exact hval r' hr'
  obtain ⟨st', ids', e1, w1, x1, d1, v1⟩ := exec_spec ty w.st hwf.1 _ hpr
  have hmem : ∀ r ∈ w.st.load ids, r.id ∈ ids := by
    intro r hr
    rw [← hids]
    exact List.mem_map.2 ⟨r, hr, rfl⟩
  obtain ⟨t1, t2⟩ := exec_replace ty m (w.st.load ids) w.st st' ids' hwf.1 hval (by rw [hmap]; exact hnd)
    (fun r hr => ht r.id (hmem r hr)) e1
  refine ⟨{ st := st', cols := w.cols.set c ids' }, ?_, ?_, ?_⟩
  · simp only [World.step, hc, plan, e1, Option.bind_eq_bind, Option.bind_some]
  · apply types_of_truthAt
    intro js hj
    have hcl : c < w.cols.length := (List.getElem?_eq_some_iff.1 hc).1
    simp only [List.getElem?_set_self hcl, Option.some.injEq] at hj
    subst hj
    exact t1
  · intro d js hd hj htd hdis
    apply types_of_truthAt
    intro js' hj'
    simp only [List.getElem?_set_ne (Ne.symm hd), hj, Option.some.injEq] at hj'
    subst hj'
    intro i hi
    obtain ⟨p, hp, hq⟩ := htd i hi
    refine ⟨p, x1.1 _ _ hp, ?_⟩
    rw [t2 p.dref _ (hwf.1 _ _ hp)]
    · exact hq
    · rw [hmap]
      have := hdis i hi
      simpa [Store.drefOf, hp] using this

end

/-! ### witnesses -/

/-- values of two Python types: `inl` models `int` values, `inr` models `str` values -/
abbrev IntOrStr := Nat ⊕ Nat
def tyIS : IntOrStr → Bool := Sum.isLeft

/-- C12 fails: after `del c[0]` the deleted value is still counted. -/
theorem C12_fails_delete :
    ((({} : World IntOrStr Bool).run tyIS 4 [.new [.inl 1, .inr 2, .inl 3], .op 0 (.delInt 0)]).map fun w =>
      (w.types 0 true, typeCounts tyIS (colIter (w.pages 0)) true)) = some (2, 1) := by decide

/-- C12 fails: `remove_all` leaves the removed values in the counts. -/
theorem C12_fails_remove_all :
    ((({} : World IntOrStr Bool).run tyIS 4 [.new [.inl 1, .inr 2, .inl 3], .op 0 (.removeAll [.inl 1])]).map fun w =>
      (w.types 0 true, typeCounts tyIS (colIter (w.pages 0)) true)) = some (2, 1) := by decide

/-- C12/C08 fail for type counts: `replace` on the original changes `types()` of an untouched copy. -/
theorem C12_fails_replace_shared :
    ((({} : World IntOrStr Bool).run tyIS 4 [.new [.inl 1, .inr 2, .inl 3], .copy 0, .op 0 (.replace [(.inl 1, .inr 9)])]).map fun w =>
      (w.types 1 true, typeCounts tyIS (colIter (w.pages 1)) true)) = some (1, 2) := by decide

/-- C12 in full: after every history of steps from the empty state, `types()` of every column counts the values of each type. -/
def C12_statement : Prop :=
  ∀ (ps : Nat) (cmds : List (Cmd IntOrStr)) (w : World IntOrStr Bool), ({} : World IntOrStr Bool).run tyIS ps cmds = some w →
    ∀ (c : Nat) (t : Bool), w.types c t = typeCounts tyIS (colIter (w.pages c)) t

theorem C12_fails : ¬ C12_statement := by
  intro h
  have hw := C12_fails_delete
  cases e : ({} : World IntOrStr Bool).run tyIS 4 [.new [.inl 1, .inr 2, .inl 3], .op 0 (.delInt 0)] with
  | none => rw [e] at hw; cases hw
  | some w =>
    rw [e] at hw
    have := h _ _ w e 0 true
    simp only [Option.map_some, Option.some.injEq, Prod.mk.injEq] at hw
    omega

/-- the hypotheses of `C12_replace_partial` are met by a fresh two-page column -/
example : ∃ w, ({} : World IntOrStr Bool).run tyIS 2 [.new [.inl 1, .inr 2, .inl 3]] = some w ∧ w.cols[0]? = some [0, 1] ∧
    ([0, 1].map w.st.drefOf).Nodup ∧ (∀ i ∈ [0, 1], w.st.TruthAt tyIS i) ∧
    ((w.step tyIS 2 (.op 0 (.replace [(.inl 3, .inr 8)]))).map fun w => (w.types 0 true, w.types 0 false)) = some (1, 2) := by
  refine ⟨_, rfl, rfl, by decide, ?_, by decide⟩
  intro i hi
  simp only [List.mem_cons, List.not_mem_nil, or_false] at hi
  rcases hi with rfl | rfl
  · exact ⟨_, rfl, rfl⟩
  · exact ⟨_, rfl, rfl⟩

example : ((({} : World IntOrStr Bool).run tyIS 2 [.new [.inl 1, .inr 2, .inl 3], .copy 0, .op 0 (.setInt 0 (.inr 7)),
    .op 1 (.setSlice { start := some 1, stop := some 2 } [.inl 5, .inl 6]), .op 0 (.extendCol 1)]).map fun w =>
      (colIter (w.pages 0), colIter (w.pages 1), w.types 0 true)) =
    some ([.inr 7, .inr 2, .inl 3, .inl 1, .inl 5, .inl 6, .inl 3], [.inl 1, .inl 5, .inl 6, .inl 3], 5) := by decide

end Tablite
