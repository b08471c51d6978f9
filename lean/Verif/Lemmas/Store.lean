import Verif.Model.Store
import Verif.Lemmas.ColumnWrite
/-! Lemmas about the page store. -/

namespace Tablite

/-- the page-level meaning of a column operation (the functions proved correct in `Props/ColumnWrite`). -/
def opPages {α} [DecidableEq α] (ps : Nat) (others : Nat → Pages α) (pages : Pages α) : ColOp α → Except Err (Pages α)
  | .extend v => .ok (extend ps pages v)
  | .extendCol o => .ok (extendCol pages (others o))
  | .clear => .ok []
  | .imul n => colIMul pages n
  | .setInt i v => setInt pages i v
  | .delInt i => delInt i 0 pages
  | .removeAll vs => .ok (removeAll pages vs)
  | .replace m => .ok (replaceVals pages m)
  | .setSlice s v => setSlice ps pages s v
  | .delSlice s => delSlice ps pages s

section
variable {α : Type} [DecidableEq α]

theorem map_keep_data (rs : List (Ref α)) : (rs.map Plan.keep).map Plan.data = rs.map Ref.data := by
  rw [List.map_map]; rfl

theorem map_fresh_data (l : List (List α)) : (l.map Plan.fresh).map Plan.data = l := by
  rw [List.map_map]; exact List.map_id l

theorem planSetInt_data (key : Int) (v : α) (s : Int) (rs : List (Ref α)) :
    (planSetInt key v s rs).map Plan.data = setIntLoop key v s (rs.map Ref.data) := by
  induction rs generalizing s with
  | nil => rfl
  | cons r t ih =>
    simp only [planSetInt, List.map_cons, setIntLoop]
    split
    · simp only [List.map_cons, map_keep_data]; rfl
    · simp only [List.map_cons, ih]; rfl

theorem planSetExtend_data (ps : Nat) (key : Int) (v : List α) (done : List (Plan α)) (s : Int) (rs : List (Ref α)) :
    (planSetExtend ps key v done s rs).map Plan.data = setExtendLoop ps key v (done.map Plan.data) s (rs.map Ref.data) := by
  induction rs generalizing s done with
  | nil => simp [planSetExtend, setExtendLoop, Plan.data]
  | cons r t ih =>
    simp only [planSetExtend, List.map_cons, setExtendLoop]
    split
    · simp only [List.map_append, map_fresh_data, extend]
    · rw [ih]; simp [Plan.data]

theorem planSetPrextend_data (ps : Nat) (b : Int) (v : List α) (s : Int) (rs : List (Ref α)) :
    (planSetPrextend ps b v s rs).map (List.map Plan.data) = setPrextendLoop ps b v s (rs.map Ref.data) := by
  induction rs generalizing s with
  | nil => rfl
  | cons r t ih =>
    simp only [planSetPrextend, List.map_cons, setPrextendLoop]
    split
    · simp only [Option.map_some, List.map_append, map_fresh_data, map_keep_data, extend, List.nil_append]
    · exact ih _

omit [DecidableEq α] in
theorem planInsertKeep_data (ks ke s : Int) (rs : List (Ref α)) (acc : InsertAcc α) :
    (setInsertLoop ks ke s (rs.map Ref.data) acc).unchangedHead = acc.unchangedHead ++ (planInsertKeep ks ke s rs).1.map Ref.data ∧
    (setInsertLoop ks ke s (rs.map Ref.data) acc).unchangedTail = acc.unchangedTail ++ (planInsertKeep ks ke s rs).2.map Ref.data := by
  induction rs generalizing s acc with
  | nil => simp [setInsertLoop, planInsertKeep]
  | cons r t ih =>
    simp only [List.map_cons, setInsertLoop, planInsertKeep]
    constructor
    · rw [(ih _ _).1]
      by_cases h1 : s + r.data.length ≤ ks <;> by_cases h2 : s ≤ ks ∧ ks < s + r.data.length <;>
        by_cases h3 : s ≤ ke ∧ ke < s + r.data.length <;> by_cases h4 : ke < s <;> simp [h1, h2, h3, h4]
    · rw [(ih _ _).2]
      by_cases h1 : s + r.data.length ≤ ks <;> by_cases h2 : s ≤ ks ∧ ks < s + r.data.length <;>
        by_cases h3 : s ≤ ke ∧ ke < s + r.data.length <;> by_cases h4 : ke < s <;> simp [h1, h2, h3, h4]

omit [DecidableEq α] in
theorem planInsertKeep_mem (ks ke s : Int) (rs : List (Ref α)) :
    (∀ r ∈ (planInsertKeep ks ke s rs).1, r ∈ rs) ∧ (∀ r ∈ (planInsertKeep ks ke s rs).2, r ∈ rs) := by
  induction rs generalizing s with
  | nil => simp [planInsertKeep]
  | cons r t ih =>
    have := ih (s + r.data.length)
    simp only [planInsertKeep]
    constructor
    · intro q hq
      split at hq
      · rcases List.mem_cons.1 hq with h | h
        · simp [h]
        · simp [this.1 q h]
      · simp [this.1 q hq]
    · intro q hq
      split at hq
      · rcases List.mem_cons.1 hq with h | h
        · simp [h]
        · simp [this.2 q h]
      · simp [this.2 q hq]

omit [DecidableEq α] in
theorem planUpdateClass_data (ks ke s : Int) (rs : List (Ref α)) (a : List (Ref α) × List (Ref α) × List (Ref α)) (acc : UpdAcc α)
    (h1 : acc.head = a.1.map Ref.data) (h2 : acc.changed = a.2.1.map Ref.data) (h3 : acc.tail = a.2.2.map Ref.data) :
    (setUpdateLoop ks ke s (rs.map Ref.data) acc).head = (planUpdateClass ks ke s rs a).1.map Ref.data ∧
    (setUpdateLoop ks ke s (rs.map Ref.data) acc).changed = (planUpdateClass ks ke s rs a).2.1.map Ref.data ∧
    (setUpdateLoop ks ke s (rs.map Ref.data) acc).tail = (planUpdateClass ks ke s rs a).2.2.map Ref.data := by
  induction rs generalizing s a acc with
  | nil => exact ⟨h1, h2, h3⟩
  | cons r t ih =>
    obtain ⟨h, c, tl⟩ := a
    simp only at h1 h2 h3
    simp only [List.map_cons, setUpdateLoop, planUpdateClass]
    have hc : acc.changed = [] ↔ c = [] := by rw [h2]; simp
    apply ih
    all_goals
      by_cases c1 : s + r.data.length ≤ ks ∧ c = [] <;> by_cases c2 : s ≤ ks ∧ ks < s + r.data.length <;>
      by_cases c3 : s ≤ ke ∧ ke < s + r.data.length <;> simp [c1, c2, c3, h1, h2, h3]

omit [DecidableEq α] in
theorem planUpdateClass_mem (ks ke s : Int) (rs : List (Ref α)) (a : List (Ref α) × List (Ref α) × List (Ref α)) (P : Ref α → Prop)
    (ha : ∀ r, (r ∈ a.1 ∨ r ∈ a.2.1 ∨ r ∈ a.2.2) → P r) (hr : ∀ r ∈ rs, P r) :
    ∀ r, (r ∈ (planUpdateClass ks ke s rs a).1 ∨ r ∈ (planUpdateClass ks ke s rs a).2.1 ∨ r ∈ (planUpdateClass ks ke s rs a).2.2) → P r := by
  induction rs generalizing s a with
  | nil => exact ha
  | cons r t ih =>
    obtain ⟨h, c, tl⟩ := a
    simp only [planUpdateClass]
    apply ih
    · intro q hq
      have hrr := hr r (by simp)
      by_cases hqr : q = r
      · rw [hqr]; exact hrr
      · apply ha q
        repeat' split at hq
        all_goals simpa [hqr] using hq
    · intro q hq; exact hr q (by simp [hq])

omit [DecidableEq α] in
theorem planDelClass_data (ks ke s : Int) (rs : List (Ref α)) (a : List (Ref α) × List (Ref α) × List (Ref α)) (acc : UpdAcc α)
    (h1 : acc.head = a.1.map Ref.data) (h2 : acc.changed = a.2.1.map Ref.data) (h3 : acc.tail = a.2.2.map Ref.data) :
    (delSliceLoop ks ke s (rs.map Ref.data) acc).head = (planDelClass ks ke s rs a).1.map Ref.data ∧
    (delSliceLoop ks ke s (rs.map Ref.data) acc).changed = (planDelClass ks ke s rs a).2.1.map Ref.data ∧
    (delSliceLoop ks ke s (rs.map Ref.data) acc).tail = (planDelClass ks ke s rs a).2.2.map Ref.data := by
  induction rs generalizing s a acc with
  | nil => exact ⟨h1, h2, h3⟩
  | cons r t ih =>
    obtain ⟨h, c, tl⟩ := a
    simp only at h1 h2 h3
    simp only [List.map_cons, delSliceLoop, planDelClass]
    have hc : acc.changed = [] ↔ c = [] := by rw [h2]; simp
    apply ih
    all_goals
      by_cases c1 : ke < s ∧ c = [] <;> by_cases c2 : s ≤ ks ∧ ks < s + r.data.length <;>
      by_cases c3 : s ≤ ke ∧ ke ≤ s + r.data.length <;> simp [c1, c2, c3, h1, h2, h3]

omit [DecidableEq α] in
theorem planDelClass_mem (ks ke s : Int) (rs : List (Ref α)) (a : List (Ref α) × List (Ref α) × List (Ref α)) (P : Ref α → Prop)
    (ha : ∀ r, (r ∈ a.1 ∨ r ∈ a.2.1 ∨ r ∈ a.2.2) → P r) (hr : ∀ r ∈ rs, P r) :
    ∀ r, (r ∈ (planDelClass ks ke s rs a).1 ∨ r ∈ (planDelClass ks ke s rs a).2.1 ∨ r ∈ (planDelClass ks ke s rs a).2.2) → P r := by
  induction rs generalizing s a with
  | nil => exact ha
  | cons r t ih =>
    obtain ⟨h, c, tl⟩ := a
    simp only [planDelClass]
    apply ih
    · intro q hq
      have hrr := hr r (by simp)
      by_cases hqr : q = r
      · rw [hqr]; exact hrr
      · apply ha q
        repeat' split at hq
        all_goals simpa [hqr] using hq
    · intro q hq; exact hr q (by simp [hq])

theorem planDelInt_data (key s : Int) (rs : List (Ref α)) :
    (planDelInt key s rs).map (List.map Plan.data) = delInt key s (rs.map Ref.data) := by
  induction rs generalizing s with
  | nil => rfl
  | cons r t ih =>
    simp only [planDelInt, List.map_cons, delInt]
    have := ih (s + r.data.length)
    split
    · split
      · rw [← this]
        cases planDelInt key (s + r.data.length) t <;> rfl
      · rfl
    · rw [← this]
      cases planDelInt key (s + r.data.length) t <;> rfl

/-- the id-level operation refines the page-level one -/
theorem plan_data (ps : Nat) (others : Nat → List (Ref α)) (rs : List (Ref α)) (o : ColOp α) :
    (plan ps others rs o).map (List.map Plan.data) = opPages ps (fun d => (others d).map Ref.data) (rs.map Ref.data) o := by
  cases o with
  | extend v => simp only [plan, opPages, Except.map, List.map_append, map_keep_data, map_fresh_data, extend]
  | extendCol o => simp only [plan, opPages, Except.map, List.map_append, map_keep_data, extendCol]
  | clear => rfl
  | imul n =>
    simp only [plan, opPages, colIMul]
    split
    · simp only [Except.map, map_keep_data, List.map_flatten, List.map_replicate]
    · rfl
  | setInt i v =>
    simp only [plan, opPages, setInt]
    generalize (if i < 0 then (colLen (List.map Ref.data rs) : Int) + i else i) = key
    split
    · simp only [Except.map, planSetInt_data]
    · rfl
  | delInt i => exact planDelInt_data i 0 rs
  | removeAll vs =>
    simp only [plan, opPages, Except.map, removeAll, List.map_map]
    congr 1
    apply List.map_congr_left
    intro r _
    simp only [Function.comp]
    have hany : (r.data.map fun x => decide (x ∈ vs)).any id = r.data.any fun x => vs.contains x := by
      rw [List.any_map]; congr 1; funext x; simp
    rw [hany]
    split
    · simp only [Plan.data]
      have hkeep : ∀ p : List α, p.filter (fun x => !vs.contains x) = (((p.map fun x => decide (x ∈ vs)).map not).zip p).filterMap (fun q => if q.1 then some q.2 else none) := by
        intro p
        induction p with
        | nil => rfl
        | cons a u ih =>
          simp only [List.map_cons, List.zip_cons_cons, List.filterMap_cons, List.filter_cons]
          by_cases ha : a ∈ vs <;> simp [ha]
          all_goals (simpa using ih)
      rw [← List.map_map]
      exact hkeep _
    · rfl
  | replace m =>
    simp only [plan, opPages, Except.map, replaceVals, List.map_map]
    congr 1
    apply List.map_congr_left
    intro r _
    simp only [Function.comp]
    split <;> rfl
  | setSlice s v =>
    simp only [plan, opPages, setSlice]
    split
    · cases s.start with
      | none =>
        cases s.stop with
        | none => simp only [Except.map, map_fresh_data, setReplaceAll, extend, List.nil_append]
        | some b =>
          simp only [setPrextend]
          split
          · simp only [Except.map, map_fresh_data, extend, List.nil_append]
          · rw [← planSetPrextend_data]
            generalize (if b < 0 then (({ stop := some b } : PySlice).indices (colLen (List.map Ref.data rs))).2.1 else b) = b'
            cases planSetPrextend ps b' v 0 rs with
            | none => simp only [Except.map, map_keep_data, Option.map_none]
            | some p => simp only [Except.map, Option.map_some]
      | some a =>
        cases s.stop with
        | none => simp only [Except.map, planSetExtend_data, setExtend, List.map_nil]
        | some b =>
          simp only [setInsert, Except.map, List.map_append, map_keep_data, map_fresh_data]
          rw [(planInsertKeep_data _ _ _ _ _).1, (planInsertKeep_data _ _ _ _ _).2]
          simp
    · unfold setUpdate
      split
      · rfl
      · generalize s.indices (colLen (List.map Ref.data rs)) = x
        obtain ⟨ks, ke, k⟩ := x
        dsimp only
        split
        · rfl
        · obtain ⟨e1, e2, e3⟩ := planUpdateClass_data ks ke 0 rs ([], [], []) {} rfl rfl rfl
          have hc : (setUpdateLoop ks ke 0 (List.map Ref.data rs) {}).changed = [] ↔ (planUpdateClass ks ke 0 rs ([], [], [])).2.1 = [] := by
            rw [e2]; simp
          by_cases hcc : (planUpdateClass ks ke 0 rs ([], [], [])).2.1 = []
          · rw [if_pos hcc, if_pos (hc.2 hcc)]; rfl
          · rw [if_neg hcc, if_neg (fun h => hcc (hc.1 h))]
            rw [e1, e2, e3]
            generalize setUpdateWrite _ _ _ _ = res
            cases res with
            | error e => rfl
            | ok new => simp only [bind, Except.bind, Except.map, List.map_append, map_keep_data, map_fresh_data]
  | delSlice s =>
    simp only [plan, opPages, delSlice]
    split
    · rfl
    · generalize s.indices (colLen (List.map Ref.data rs)) = x
      obtain ⟨ks, ke, k⟩ := x
      dsimp only
      obtain ⟨e1, e2, e3⟩ := planDelClass_data ks ke 0 rs ([], [], []) {} rfl rfl rfl
      have hc : (delSliceLoop ks ke 0 (List.map Ref.data rs) {}).changed = [] ↔ (planDelClass ks ke 0 rs ([], [], [])).2.1 = [] := by
        rw [e2]; simp
      by_cases hcc : (planDelClass ks ke 0 rs ([], [], [])).2.1 = []
      · rw [if_pos hcc, if_pos (hc.2 hcc)]; rfl
      · rw [if_neg hcc, if_neg (fun h => hcc (hc.1 h))]
        rw [e1, e2, e3]
        cases (delSliceLoop ks ke 0 (List.map Ref.data rs) {}).startsOn with
        | none =>
          dsimp only
          split
          · simp only [Except.map, List.map_append, map_keep_data, map_fresh_data]
          · rfl
        | some so =>
          dsimp only
          generalize npDelete _ _ = res
          cases res with
          | error e => rfl
          | ok new => simp only [bind, Except.bind, Except.map, List.map_append, map_keep_data, map_fresh_data]

/-- which page references a plan slot uses -/
def Plan.RefsIn (P : Ref α → Prop) : Plan α → Prop
  | .keep r => P r
  | .fresh _ => True
  | .bump r k _ => P r ∧ k < r.data.length
  | .stale r _ => P r
  | .mutate r _ => P r

omit [DecidableEq α] in
theorem planSetInt_refs (key : Int) (v : α) (s : Int) (rs : List (Ref α)) (P : Ref α → Prop) (h : ∀ r ∈ rs, P r) :
    ∀ p ∈ planSetInt key v s rs, p.RefsIn P := by
  induction rs generalizing s with
  | nil => simp [planSetInt]
  | cons r t ih =>
    simp only [planSetInt]
    intro p hp
    split at hp
    · rcases List.mem_cons.1 hp with e | e
      · subst e; exact ⟨h r (by simp), by omega⟩
      · obtain ⟨q, hq, rfl⟩ := List.mem_map.1 e
        exact h q (by simp [hq])
    · rcases List.mem_cons.1 hp with e | e
      · subst e; exact h r (by simp)
      · exact ih _ (fun q hq => h q (by simp [hq])) p e

omit [DecidableEq α] in
theorem fresh_refs (P : Ref α → Prop) (l : List (List α)) : ∀ p ∈ l.map Plan.fresh, p.RefsIn P := by
  intro p hp
  obtain ⟨q, _, rfl⟩ := List.mem_map.1 hp
  trivial

omit [DecidableEq α] in
theorem keep_refs (P : Ref α → Prop) (l : List (Ref α)) (h : ∀ r ∈ l, P r) : ∀ p ∈ l.map Plan.keep, p.RefsIn P := by
  intro p hp
  obtain ⟨q, hq, rfl⟩ := List.mem_map.1 hp
  exact h q hq

omit [DecidableEq α] in
theorem append_refs (P : Ref α → Prop) {a b : List (Plan α)} (ha : ∀ p ∈ a, p.RefsIn P) (hb : ∀ p ∈ b, p.RefsIn P) :
    ∀ p ∈ a ++ b, p.RefsIn P := by
  intro p hp
  rcases List.mem_append.1 hp with h | h
  · exact ha p h
  · exact hb p h

omit [DecidableEq α] in
theorem planSetExtend_refs (ps : Nat) (key : Int) (v : List α) (done : List (Plan α)) (s : Int) (rs : List (Ref α)) (P : Ref α → Prop)
    (hd : ∀ p ∈ done, p.RefsIn P) (h : ∀ r ∈ rs, P r) : ∀ p ∈ planSetExtend ps key v done s rs, p.RefsIn P := by
  induction rs generalizing s done with
  | nil =>
    simp only [planSetExtend]
    exact append_refs P hd (by simp [Plan.RefsIn])
  | cons r t ih =>
    simp only [planSetExtend]
    split
    · exact append_refs P hd (fresh_refs P _)
    · apply ih
      · exact append_refs P hd (by simpa [Plan.RefsIn] using h r (by simp))
      · exact fun q hq => h q (by simp [hq])

omit [DecidableEq α] in
theorem planSetPrextend_refs (ps : Nat) (b : Int) (v : List α) (s : Int) (rs : List (Ref α)) (P : Ref α → Prop)
    (h : ∀ r ∈ rs, P r) (res : List (Plan α)) (e : planSetPrextend ps b v s rs = some res) : ∀ p ∈ res, p.RefsIn P := by
  induction rs generalizing s with
  | nil => simp [planSetPrextend] at e
  | cons r t ih =>
    simp only [planSetPrextend] at e
    split at e
    · injection e with e
      subst e
      exact append_refs P (fresh_refs P _) (keep_refs P _ (fun q hq => h q (by simp [hq])))
    · exact ih _ (fun q hq => h q (by simp [hq])) e

omit [DecidableEq α] in
theorem planDelInt_refs (key s : Int) (rs : List (Ref α)) (P : Ref α → Prop) (h : ∀ r ∈ rs, P r) (res : List (Plan α))
    (e : planDelInt key s rs = .ok res) : ∀ p ∈ res, p.RefsIn P := by
  induction rs generalizing s res with
  | nil => simp only [planDelInt] at e; injection e with e; subst e; simp
  | cons r t ih =>
    simp only [planDelInt] at e
    have ih' := ih (s + r.data.length) (fun q hq => h q (by simp [hq]))
    have hr := h r (by simp)
    revert e ih'
    generalize planDelInt key (s + r.data.length) t = m
    intro e ih'
    cases m with
    | error er => 
      split at e
      · split at e <;> cases e
      · cases e
    | ok more =>
      have hm := ih' more rfl
      simp only [bind, Except.bind] at e
      split at e
      · split at e
        · injection e with e; subst e
          intro p hp
          rcases List.mem_cons.1 hp with hh | hh
          · subst hh; exact hr
          · exact hm p hh
        · cases e
      · injection e with e; subst e
        intro p hp
        rcases List.mem_cons.1 hp with hh | hh
        · subst hh; exact hr
        · exact hm p hh

/-- all references of a plan come from the loaded pages -/
theorem plan_refs (ps : Nat) (others : Nat → List (Ref α)) (rs : List (Ref α)) (o : ColOp α) (P : Ref α → Prop)
    (h : ∀ r ∈ rs, P r) (ho : ∀ d, ∀ r ∈ others d, P r) (pl : List (Plan α)) (e : plan ps others rs o = .ok pl) :
    ∀ p ∈ pl, p.RefsIn P := by
  cases o with
  | extend v =>
    simp only [plan] at e; injection e with e; subst e
    exact append_refs P (keep_refs P _ h) (fresh_refs P _)
  | extendCol o =>
    simp only [plan] at e; injection e with e; subst e
    exact append_refs P (keep_refs P _ h) (keep_refs P _ (ho o))
  | clear => simp only [plan] at e; injection e with e; subst e; simp
  | imul n =>
    simp only [plan] at e
    split at e
    · injection e with e; subst e
      apply keep_refs
      intro r hr
      obtain ⟨l, hl, hrl⟩ := List.mem_flatten.1 hr
      rw [List.eq_of_mem_replicate hl] at hrl
      exact h r hrl
    · cases e
  | setInt i v =>
    simp only [plan] at e
    generalize (if i < 0 then (colLen (List.map Ref.data rs) : Int) + i else i) = key at e
    split at e
    · injection e with e; subst e
      exact planSetInt_refs _ _ _ _ P h
    · cases e
  | delInt i => exact planDelInt_refs _ _ _ P h pl e
  | removeAll vs =>
    simp only [plan] at e; injection e with e; subst e
    intro p hp
    obtain ⟨r, hr, rfl⟩ := List.mem_map.1 hp
    split <;> exact h r hr
  | replace m =>
    simp only [plan] at e; injection e with e; subst e
    intro p hp
    obtain ⟨r, hr, rfl⟩ := List.mem_map.1 hp
    split <;> exact h r hr
  | setSlice s v =>
    simp only [plan] at e
    split at e
    · split at e
      · injection e with e; subst e; exact fresh_refs P _
      · injection e with e; subst e
        exact planSetExtend_refs _ _ _ _ _ _ P (by simp) h
      · split at e
        · injection e with e; subst e; exact fresh_refs P _
        · split at e
          · rename_i p hp
            injection e with e; subst e
            exact planSetPrextend_refs _ _ _ _ _ P h _ hp
          · injection e with e; subst e; exact keep_refs P _ h
      · injection e with e; subst e
        have hm := planInsertKeep_mem (α := α)
        refine append_refs P (append_refs P (keep_refs P _ ?_) (fresh_refs P _)) (keep_refs P _ ?_)
        · intro r hr; exact h r ((hm _ _ _ _).1 r hr)
        · intro r hr; exact h r ((hm _ _ _ _).2 r hr)
    · split at e
      · cases e
      · split at e
        · cases e
        · split at e
          · cases e
          · have hm := planUpdateClass_mem (s.indices (colLen (rs.map Ref.data))).1 (s.indices (colLen (rs.map Ref.data))).2.1 0 rs ([], [], []) P (by simp) h
            simp only [bind, Except.bind] at e
            split at e
            · cases e
            · injection e with e; subst e
              refine append_refs P (append_refs P (keep_refs P _ ?_) (fresh_refs P _)) (keep_refs P _ ?_)
              · intro r hr; exact hm r (Or.inl hr)
              · intro r hr; exact hm r (Or.inr (Or.inr hr))
  | delSlice s =>
    simp only [plan] at e
    have hm := planDelClass_mem (s.indices (colLen (rs.map Ref.data))).1 (s.indices (colLen (rs.map Ref.data))).2.1 0 rs ([], [], []) P (by simp) h
    split at e
    · cases e
    · split at e
      · cases e
      · split at e
        · split at e
          · injection e with e; subst e
            refine append_refs P (append_refs P (keep_refs P _ ?_) (fresh_refs P _)) (keep_refs P _ ?_)
            · intro r hr; exact hm r (Or.inl hr)
            · intro r hr; exact hm r (Or.inr (Or.inr hr))
          · cases e
        · simp only [bind, Except.bind] at e
          split at e
          · cases e
          · injection e with e; subst e
            refine append_refs P (append_refs P (keep_refs P _ ?_) (fresh_refs P _)) (keep_refs P _ ?_)
            · intro r hr; exact hm r (Or.inl hr)
            · intro r hr; exact hm r (Or.inr (Or.inr hr))

end

section
variable {α τ : Type} [DecidableEq α] [DecidableEq τ] (ty : α → τ)

/-- all dictionary references are valid -/
def Store.WF (st : Store α τ) : Prop := ∀ (i : Nat) (p : Pg α), st.pgs[i]? = some p → p.dref < st.dicts.length

/-- a loaded reference agrees with the store -/
def Store.Valid (st : Store α τ) (r : Ref α) : Prop := ∃ p, st.pgs[r.id]? = some p ∧ p.data = r.data

/-- `st'` has all pages of `st`, unchanged, and at least as many dictionaries -/
def Store.Extends (st st' : Store α τ) : Prop :=
  (∀ (i : Nat) (p : Pg α), st.pgs[i]? = some p → st'.pgs[i]? = some p) ∧ st.dicts.length ≤ st'.dicts.length

omit [DecidableEq α] [DecidableEq τ] in
theorem Store.Extends.refl (st : Store α τ) : st.Extends st := ⟨fun _ _ h => h, Nat.le_refl _⟩
omit [DecidableEq α] [DecidableEq τ] in
theorem Store.Extends.trans {a b c : Store α τ} (h1 : a.Extends b) (h2 : b.Extends c) : a.Extends c :=
  ⟨fun i p h => h2.1 i p (h1.1 i p h), Nat.le_trans h1.2 h2.2⟩

omit [DecidableEq α] [DecidableEq τ] in
theorem Store.Extends.valid {a b : Store α τ} (h : a.Extends b) {r : Ref α} (v : a.Valid r) : b.Valid r := by
  obtain ⟨p, h1, h2⟩ := v
  exact ⟨p, h.1 _ _ h1, h2⟩

omit [DecidableEq α] [DecidableEq τ] in
theorem newPage_extends (st : Store α τ) (d : List α) (c : τ → Nat) : st.Extends (st.newPage d c).1 := by
  refine ⟨?_, by simp [Store.newPage]⟩
  intro i p h
  simp only [Store.newPage]
  rw [List.getElem?_append_left (List.getElem?_eq_some_iff.1 h).1]; exact h

omit [DecidableEq α] [DecidableEq τ] in
theorem newPageSharing_extends (st : Store α τ) (d : List α) (k : Nat) : st.Extends (st.newPageSharing d k).1 := by
  refine ⟨?_, by simp [Store.newPageSharing]⟩
  intro i p h
  simp only [Store.newPageSharing]
  rw [List.getElem?_append_left (List.getElem?_eq_some_iff.1 h).1]; exact h

omit [DecidableEq α] [DecidableEq τ] in
theorem newPage_wf (st : Store α τ) (h : st.WF) (d : List α) (c : τ → Nat) : (st.newPage d c).1.WF := by
  intro i p hp
  simp only [Store.newPage] at *
  rw [List.getElem?_append] at hp
  split at hp
  · have := h i p hp; simp; omega
  · cases hi : i - st.pgs.length with
    | zero =>
      rw [hi] at hp
      simp only [List.getElem?_cons_zero, Option.some.injEq] at hp
      subst hp
      rw [List.length_append]
      exact Nat.lt_succ_self _
    | succ j => rw [hi] at hp; simp at hp

omit [DecidableEq α] [DecidableEq τ] in
theorem newPageSharing_wf (st : Store α τ) (h : st.WF) (d : List α) (k : Nat) (hk : k < st.dicts.length) : (st.newPageSharing d k).1.WF := by
  intro i p hp
  simp only [Store.newPageSharing] at *
  rw [List.getElem?_append] at hp
  split at hp
  · exact h i p hp
  · cases hi : i - st.pgs.length with
    | zero =>
      rw [hi] at hp
      simp only [List.getElem?_cons_zero, Option.some.injEq] at hp
      subst hp
      exact hk
    | succ j => rw [hi] at hp; simp at hp

/-- one plan slot: succeeds, keeps all old pages, yields a page with the planned data -/
theorem exec1_spec (st : Store α τ) (hwf : st.WF) (p : Plan α) (hp : p.RefsIn st.Valid) :
    ∃ st' i, st.exec1 ty p = some (st', i) ∧ st'.WF ∧ st.Extends st' ∧ ∃ q, st'.pgs[i]? = some q ∧ q.data = p.data := by
  cases p with
  | keep r =>
    obtain ⟨q, h1, h2⟩ := hp
    exact ⟨st, r.id, rfl, hwf, .refl st, q, h1, h2⟩
  | fresh d =>
    refine ⟨_, _, rfl, newPage_wf st hwf d _, newPage_extends st d _, ⟨d, st.dicts.length⟩, ?_, rfl⟩
    simp
  | bump r k v =>
    obtain ⟨⟨q, h1, h2⟩, hk⟩ := hp
    have hd := hwf _ _ h1
    simp only [Store.exec1, Store.dictOf, h1, Option.bind_eq_bind, Option.bind_some, List.getElem?_eq_getElem hd, List.getElem?_eq_getElem hk]
    refine ⟨_, _, rfl, newPage_wf st hwf _ _, newPage_extends st _ _, ⟨r.data.set k v, st.dicts.length⟩, ?_, rfl⟩
    simp
  | stale r d =>
    obtain ⟨q, h1, h2⟩ := hp
    have hd := hwf _ _ h1
    simp only [Store.exec1, h1, Option.bind_eq_bind, Option.bind_some]
    refine ⟨_, _, rfl, newPageSharing_wf st hwf _ _ hd, newPageSharing_extends st _ _, ⟨d, q.dref⟩, ?_, rfl⟩
    simp
  | mutate r m =>
    obtain ⟨q, h1, h2⟩ := hp
    have hd := hwf _ _ h1
    simp only [Store.exec1, h1, Option.bind_eq_bind, Option.bind_some, List.getElem?_eq_getElem hd]
    refine ⟨_, _, rfl, newPageSharing_wf _ ?_ _ _ (by simpa using hd), ?_, ⟨r.data.map fun x => (m.lookup x).getD x, q.dref⟩, ?_, rfl⟩
    · intro i p h; have := hwf i p h; simpa using this
    · exact ⟨fun i p h => (newPageSharing_extends st _ q.dref).1 i p h, by simp⟩
    · simp

omit [DecidableEq τ] [DecidableEq α] in
theorem refsIn_mono {P Q : Ref α → Prop} (h : ∀ r, P r → Q r) {p : Plan α} (hp : p.RefsIn P) : p.RefsIn Q := by
  cases p <;> simp only [Plan.RefsIn] at * <;> first | exact h _ hp | exact ⟨h _ hp.1, hp.2⟩ | trivial

theorem exec_spec (st : Store α τ) (hwf : st.WF) (pl : List (Plan α)) (hp : ∀ p ∈ pl, p.RefsIn st.Valid) :
    ∃ st' ids, st.exec ty pl = some (st', ids) ∧ st'.WF ∧ st.Extends st' ∧
      (st'.load ids).map Ref.data = pl.map Plan.data ∧ (∀ i ∈ ids, ∃ p, st'.pgs[i]? = some p) := by
  induction pl generalizing st with
  | nil => exact ⟨st, [], rfl, hwf, .refl st, rfl, by simp⟩
  | cons p t ih =>
    obtain ⟨st1, i, e1, w1, x1, q, q1, q2⟩ := exec1_spec ty st hwf p (hp p (by simp))
    obtain ⟨st2, is, e2, w2, x2, d2, v2⟩ := ih st1 w1 (fun p' hp' => refsIn_mono (fun r hr => x1.valid hr) (hp p' (by simp [hp'])))
    refine ⟨st2, i :: is, ?_, w2, x1.trans x2, ?_, ?_⟩
    · simp [Store.exec, e1, e2]
    · have hq := x2.1 i q q1
      simp only [Store.load, List.filterMap_cons, hq, Option.map_some, List.map_cons, q2]
      rw [← d2]; rfl
    · intro j hj
      rcases List.mem_cons.1 hj with rfl | hj
      · exact ⟨q, x2.1 _ _ q1⟩
      · exact v2 j hj

omit [DecidableEq α] [DecidableEq τ] in
theorem load_valid (st : Store α τ) (ids : List Nat) : ∀ r ∈ st.load ids, st.Valid r := by
  intro r hr
  simp only [Store.load, List.mem_filterMap] at hr
  obtain ⟨i, _, hi⟩ := hr
  cases hpi : st.pgs[i]? with
  | none => simp [hpi] at hi
  | some p =>
    simp only [hpi, Option.map_some, Option.some.injEq] at hi
    subst hi
    exact ⟨p, hpi, rfl⟩

omit [DecidableEq α] [DecidableEq τ] in
theorem load_extends {st st' : Store α τ} (h : st.Extends st') (ids : List Nat) (hv : ∀ i ∈ ids, ∃ p, st.pgs[i]? = some p) :
    st'.load ids = st.load ids := by
  unfold Store.load
  apply filterMap_congr'
  intro i hi
  obtain ⟨p, hp⟩ := hv i hi
  rw [hp, h.1 i p hp]

/-- all page references of all columns are valid, all dictionary references too -/
def World.WF (w : World α τ) : Prop :=
  w.st.WF ∧ ∀ ids ∈ w.cols, ∀ i ∈ ids, ∃ p, w.st.pgs[i]? = some p

end

end Tablite
