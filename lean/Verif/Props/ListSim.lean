import Verif.Props.StrideExact
import Verif.Props.Isolation
import Verif.Props.Exact
/-!
# C113: programs on columns are programs on lists

The steps of the store model (`World`: pages shared between columns, `Model/Store.lean`) are compared with the same steps on Python lists.
-/

namespace Tablite

section
variable {α τ : Type} [DecidableEq α] [DecidableEq τ] (ty : α → τ)

/-! ## the specification: lists -/

/-- Spec: the in-place operations on Python lists; `others d` is the list `d` -/
def listOp (others : Nat → List α) (l : List α) : ColOp α → Except Err (List α)
  | .extend v => .ok (l ++ v)
  | .extendCol d => .ok (l ++ others d)
  | .clear => .ok []
  | .imul n => .ok (List.replicate n.toNat l).flatten
  | .setInt i v => pySetIndex l i v
  | .delInt i => pyDelIndex l i
  | .removeAll vs => .ok (l.filter fun x => !vs.contains x)
  | .replace m => .ok (l.map fun x => match m.find? (fun kv => kv.1 = x) with | some kv => kv.2 | none => x)
  | .setSlice s v =>
    if s.step = none ∨ s.step = some 1 then .ok (pySetSlice l s.start s.stop v)
    else if s.step = some 0 then .error .value
    else pySetStride l s v
  | .delSlice s => if s.step = some 0 then .error .value else .ok (pyDelSlice l s)

/-- Spec: one step of a program on lists, and the error it raises, if any -/
def listStep (ls : List (List α)) : Cmd α → List (List α) × Option Err
  | .new v => (ls ++ [v], none)
  | .copy c => match ls[c]? with
    | some l => (ls ++ [l], none)
    | none => (ls, none)
  | .op c o => match ls[c]? with
    | none => (ls, none)
    | some l => match listOp (fun d => (ls[d]?).getD []) l o with
      | .ok l' => (ls.set c l', none)
      | .error e => (ls, some e)

/-- Spec: a program on lists: the lists at the end and the errors raised step by step -/
def listRun (ls : List (List α)) : List (Cmd α) → List (List α) × List (Option Err)
  | [] => (ls, [])
  | c :: cs =>
    let r := listStep ls c
    let q := listRun r.1 cs
    (q.1, r.2 :: q.2)

/-! ## the columns -/

/-- the values of all columns -/
def World.values (w : World α τ) : List (List α) := (List.range w.cols.length).map fun c => colIter (w.pages c)

/-- the error a step raises, if any -/
def World.raises (ps : Nat) (w : World α τ) : Cmd α → Option Err
  | .op c o => if c < w.cols.length then
      match opPages ps w.pages (w.pages c) o with
      | .ok _ => none
      | .error e => some e
    else none
  | _ => none

/-- the errors raised step by step by a program -/
def World.errors (ps : Nat) (w : World α τ) : List (Cmd α) → List (Option Err)
  | [] => []
  | c :: cs => w.raises ps c :: match w.step ty ps c with
    | some w' => World.errors ps w' cs
    | none => []

/-- the operations that treat a column with these pages as a list -/
def OpRight (pages : Pages α) : ColOp α → Prop
  | .imul n => 0 < n
  | .setSlice s v =>
    if s.step = none ∨ s.step = some 1 then
      (∀ a, s.start = some a → s.stop = none → 0 ≤ a ∨ colLen pages = 0) ∧
      (∀ b, s.stop = some b → s.start = none → (b ≤ colLen pages ∧ (b < 0 → 0 < colLen pages)) ∨ v = colIter pages)
    else if s.step = some 0 then True
    else
      let n := (rangeList (s.indices (colLen pages)).1 (s.indices (colLen pages)).2.1 s.stepOr1).length
      n < v.length ∨ v.length = n ∧ StrideExact pages (s.indices (colLen pages)).1 (s.indices (colLen pages)).2.1 s.stepOr1 v.length
  | .delInt i => ∃ A p R, pages = A ++ p :: R ∧ A.flatten = [] ∧ 0 ≤ i ∧ i < p.length
  | .delSlice s =>
    s.step = some 0 ∨ DelOk pages (s.indices (colLen pages)).1 (s.indices (colLen pages)).2.1 ∨
      0 < s.stepOr1 ∧ (s.indices (colLen pages)).1 < (s.indices (colLen pages)).2.1 ∧
        DelExact pages (s.indices (colLen pages)).1 (s.indices (colLen pages)).2.1 s.stepOr1
  | _ => True

/-- the same for a step of a program: operations on columns that do not exist do nothing -/
def CmdRight (w : World α τ) : Cmd α → Prop
  | .op c o => OpRight (w.pages c) o
  | _ => True

/-- every step of a program is right in the state in which it is done -/
def RunRight (ps : Nat) (w : World α τ) : List (Cmd α) → Prop
  | [] => True
  | c :: cs => CmdRight w c ∧ ∀ w', w.step ty ps c = some w' → RunRight ps w' cs

/-- one operation -/
theorem opPages_list (ps : Nat) (hps : 0 < ps) (others : Nat → Pages α) (pages : Pages α) (o : ColOp α) (h : OpRight pages o) :
    (opPages ps others pages o).map colIter = listOp (fun d => colIter (others d)) (colIter pages) o := by
  have hlen : (colIter pages).length = colLen pages := by rw [colIter_eq, colLen_eq]
  cases o with
  | extend v =>
    simp only [opPages, listOp, Except.map]
    rw [show extend ps pages v = colIAddList ps pages v from rfl, (C09_iadd ps hps pages [] v).1]
  | extendCol d =>
    simp only [opPages, listOp, Except.map]
    rw [show extendCol pages (others d) = colIAddCol pages (others d) from rfl, (C09_iadd ps hps pages (others d) []).2]
  | clear => rfl
  | imul n =>
    have h : 0 < n := h
    simp only [opPages, listOp]
    rw [C09_repeat, if_pos h]
  | setInt i v => exact (C04_int_assign pages i v).1
  | delInt i =>
    obtain ⟨A, p, R, rfl, hA, h1, h2⟩ := h
    simp only [opPages, listOp]
    rw [C07_int_effect A p R i (by rw [hA]; simpa using h1) (by rw [hA]; simpa using h2), if_pos h2, colIter_eq]
    unfold pyDelIndex
    simp only [List.flatten_append, List.flatten_cons, hA, List.nil_append, show ¬ i < 0 by omega, if_false]
    rw [if_pos (by rw [List.length_append]; omega), List.eraseIdx_append_of_lt_length (by omega)]
  | removeAll vs =>
    simp only [opPages, listOp, Except.map]
    rw [C14_remove_all]
  | replace m =>
    simp only [opPages, listOp, Except.map]
    rw [C14_replace]
    rfl
  | setSlice s v =>
    simp only [opPages, listOp]
    simp only [OpRight] at h
    by_cases hs : s.step = none ∨ s.step = some 1
    · rw [if_pos hs] at h ⊢
      exact (C05_exact ps hps pages s v hs).2 h
    · rw [if_neg hs] at h ⊢
      have hset : setSlice ps pages s v = setUpdate ps pages s v := by
        unfold setSlice
        rw [if_neg hs]
      rw [hset]
      by_cases h0 : s.step = some 0
      · rw [if_pos h0]
        unfold setUpdate
        rw [if_pos h0]
        rfl
      · rw [if_neg h0] at h ⊢
        rcases h with h | ⟨h1, h2⟩
        · obtain ⟨e1, e2⟩ := C06_too_long ps pages s v h0 h
          rw [e1, e2]
          rfl
        · rw [C06_exact_partial ps hps pages s v h0 (by omega) h2]
          have e : pySetStride (colIter pages) s v =
              if v.length = (rangeList (s.indices (colIter pages).length).1 (s.indices (colIter pages).length).2.1 s.stepOr1).length then
                .ok (setMany (colIter pages) (rangeList (s.indices (colIter pages).length).1 (s.indices (colIter pages).length).2.1 s.stepOr1) v) else .error .value := rfl
          rw [e, hlen, if_pos h1]
  | delSlice s =>
    simp only [opPages, listOp]
    by_cases h0 : s.step = some 0
    · rw [if_pos h0]
      unfold delSlice
      rw [if_pos h0]
      rfl
    · rw [if_neg h0]
      rcases h with h | h | ⟨h1, h2, h3⟩
      · exact absurd h h0
      · exact C07_del_slice_partial ps hps pages s h0 h
      · exact C07_exact_partial ps hps pages s h1 h2 h3

omit [DecidableEq α] [DecidableEq τ] in
theorem values_get (w : World α τ) (c : Nat) : (w.values[c]?) = if c < w.cols.length then some (colIter (w.pages c)) else none := by
  unfold World.values
  by_cases h : c < w.cols.length
  · rw [List.getElem?_map, List.getElem?_range h, if_pos h]
    rfl
  · rw [if_neg h, List.getElem?_eq_none_iff]
    simpa using h

omit [DecidableEq α] [DecidableEq τ] in
theorem pages_out (w : World α τ) (c : Nat) (h : ¬ c < w.cols.length) : w.pages c = [] := by
  unfold World.pages
  rw [List.getElem?_eq_none (by omega)]

/-- one step -/
theorem step_list (ps : Nat) (hps : 0 < ps) (w : World α τ) (hwf : w.WF) (cmd : Cmd α) (h : CmdRight w cmd) :
    ∃ w', w.step ty ps cmd = some w' ∧ w'.WF ∧ listStep w.values cmd = (w'.values, w.raises ps cmd) := by
  have hext : ∀ (w' : World α τ), w'.cols.length = w.cols.length + 1 → (∀ d, d < w.cols.length → w'.pages d = w.pages d) →
      w'.values = w.values ++ [colIter (w'.pages w.cols.length)] := by
    intro w' hl hd
    unfold World.values
    rw [hl, List.range_succ, List.map_append]
    congr 1
    exact List.map_congr_left fun c hc => by rw [hd c (List.mem_range.1 hc)]
  cases cmd with
  | new v =>
    obtain ⟨w1, h1, h2, _, h4⟩ := C08_step_isolated ty ps w hwf (.new v)
    refine ⟨w1, h1, h2, ?_⟩
    obtain ⟨st', ids', e1, _, _, d1, _⟩ := exec_spec ty w.st hwf.1 ((paginate ps v).map .fresh) (fresh_refs _ _)
    simp only [World.step, e1, Option.bind_eq_bind, Option.bind_some, Option.some.injEq] at h1
    subst h1
    rw [hext _ (by simp) (fun d hd => h4 d hd (by simp [Cmd.touches]))]
    have hp : World.pages ({ st := st', cols := w.cols ++ [ids'] } : World α τ) w.cols.length = paginate ps v := by
      simp only [World.pages, List.getElem?_concat_length]
      rw [d1, map_fresh_data]
    rw [hp, colIter_eq, paginate_flatten hps]
    rfl
  | copy c =>
    by_cases hc : c < w.cols.length
    · obtain ⟨w1, h1, h2, _, h4⟩ := C08_step_isolated ty ps w hwf (.copy c)
      refine ⟨w1, h1, h2, ?_⟩
      have hids : w.cols[c]? = some w.cols[c] := List.getElem?_eq_getElem hc
      have e : w1 = { w with cols := w.cols ++ [w.cols[c]] } := by
        simp only [World.step, hids] at h1
        exact (Option.some.inj h1).symm
      have hp : w1.pages w.cols.length = w.pages c := by
        rw [e]
        simp only [World.pages, List.getElem?_concat_length, hids]
      rw [hext w1 (by rw [e]; simp) (fun d hd => h4 d hd (by simp [Cmd.touches])), hp]
      unfold listStep
      simp only
      rw [values_get, if_pos hc]
      rfl
    · refine ⟨w, ?_, hwf, ?_⟩
      · simp [World.step, List.getElem?_eq_none (Nat.le_of_not_lt hc)]
      · unfold listStep
        simp only
        rw [values_get, if_neg hc]
        rfl
  | op c o =>
    by_cases hc : c < w.cols.length
    · obtain ⟨w', h1, h2, h3, h4, h5⟩ := C08_step_refines ty ps w hwf c o hc
      refine ⟨w', h1, h2, ?_⟩
      have hl := opPages_list ps hps w.pages (w.pages c) o h
      have hothers : (fun d => (w.values[d]?).getD []) = fun d => colIter (w.pages d) := by
        funext d
        rw [values_get]
        by_cases hd : d < w.cols.length
        · rw [if_pos hd]; rfl
        · rw [if_neg hd, pages_out w d hd]; rfl
      have hset : ∀ l, colIter (w'.pages c) = l → w'.values = w.values.set c l := by
        intro l hl
        apply List.ext_getElem?
        intro d
        rw [values_get, h3, List.getElem?_set]
        by_cases hd : c = d
        · subst hd
          rw [if_pos hc, if_pos rfl, if_pos (by simpa [World.values] using hc), hl]
        · rw [if_neg hd, values_get, h5 d (Ne.symm hd)]
      unfold listStep World.raises
      simp only
      rw [values_get, if_pos hc, if_pos hc]
      simp only
      rw [hothers, ← hl]
      cases e : opPages ps w.pages (w.pages c) o with
      | error x =>
        rw [e] at h4
        simp only [Except.map, Prod.mk.injEq, and_true]
        refine (hset _ (congrArg colIter h4)).trans ?_ |>.symm
        apply List.ext_getElem?
        intro d
        rw [List.getElem?_set]
        split
        · rename_i hd
          subst hd
          rw [values_get, if_pos hc, if_pos (by simpa [World.values] using hc)]
        · rfl
      | ok p =>
        rw [e] at h4
        simp only [Except.map, Prod.mk.injEq, and_true]
        exact (hset _ (congrArg colIter h4)).symm
    · refine ⟨w, ?_, hwf, ?_⟩
      · simp [World.step, List.getElem?_eq_none (Nat.le_of_not_lt hc)]
      · unfold listStep World.raises
        simp only
        rw [values_get, if_neg hc, if_neg hc]

/-- **C113** (what holds).  A program on columns – creating, copying and clearing columns, adding values and other columns, writing and deleting positions and slices, repeating,
removing and replacing values – leaves the columns with the values that the same program on Python lists leaves in the lists, and raises the same errors at the same steps,
if every step is right (`OpRight`) in the state in which it is done.  Columns may share pages in any way. -/
theorem C113_partial (ps : Nat) (hps : 0 < ps) (w : World α τ) (hwf : w.WF) (cmds : List (Cmd α)) (h : RunRight ty ps w cmds) :
    ∃ w', w.run ty ps cmds = some w' ∧ w'.WF ∧ listRun w.values cmds = (w'.values, w.errors ty ps cmds) := by
  induction cmds generalizing w with
  | nil => exact ⟨w, rfl, hwf, rfl⟩
  | cons c cs ih =>
    obtain ⟨w1, h1, h2, h3⟩ := step_list ty ps hps w hwf c h.1
    obtain ⟨w2, k1, k2, k3⟩ := ih w1 h2 (h.2 w1 h1)
    refine ⟨w2, ?_, k2, ?_⟩
    · simp [World.run, h1, k1]
    · unfold listRun World.errors
      rw [h1, h3]
      simp only
      rw [k3]

/-- the operations that are right whatever the column holds and however it is divided into pages -/
def OpAlways : ColOp α → Prop
  | .imul n => 0 < n
  | .setSlice s _ => (s.step = none ∨ s.step = some 1) ∧ (s.start = none → s.stop = none) ∧ ∀ a, s.start = some a → s.stop = none → 0 ≤ a
  | .delInt _ => False
  | .delSlice s => s.step = some 0
  | _ => True

/-- **C113** (whatever the state).  A program whose steps create, copy and clear columns, add values and other columns, write positions, write slices `[:]`, `[a:]` with `a ≥ 0` and
`[a:b]`, repeat columns, remove and replace values does to columns what it does to lists, whatever the columns hold, however they are divided into pages and whatever pages they share. -/
theorem C113_always_partial (ps : Nat) (hps : 0 < ps) (w : World α τ) (hwf : w.WF) (cmds : List (Cmd α)) (h : ∀ c o, Cmd.op c o ∈ cmds → OpAlways o) :
    ∃ w', w.run ty ps cmds = some w' ∧ w'.WF ∧ listRun w.values cmds = (w'.values, w.errors ty ps cmds) := by
  have hop : ∀ (pages : Pages α) (o : ColOp α), OpAlways o → OpRight pages o := by
    intro pages o ho
    cases o with
    | setSlice s v =>
      obtain ⟨h1, h2, h3⟩ := ho
      simp only [OpRight]
      rw [if_pos h1]
      refine ⟨fun a ha hb => Or.inl (h3 a ha hb), fun b hb ha => ?_⟩
      rw [h2 ha] at hb
      cases hb
    | delInt i => exact absurd ho id
    | delSlice s => exact Or.inl ho
    | imul n => exact ho
    | _ => trivial
  apply C113_partial ty ps hps w hwf
  induction cmds generalizing w with
  | nil => trivial
  | cons c cs ih =>
    refine ⟨?_, fun w' e => ?_⟩
    · cases c with
      | op c o => exact hop _ o (h c o (by simp))
      | _ => trivial
    · obtain ⟨w1, h1, h2, _⟩ := C08_step_isolated ty ps w hwf c
      rw [h1] at e
      cases e
      exact ih w' h2 fun c o hm => h c o (by simp [hm])

end

/-- **C113** in full: every program -/
def C113_statement : Prop :=
  ∀ (ps : Nat), 0 < ps → ∀ (cmds : List (Cmd Nat)), ∃ w', ({} : World Nat Unit).run (fun _ => ()) ps cmds = some w' ∧
    listRun [] cmds = (w'.values, ({} : World Nat Unit).errors (fun _ => ()) ps cmds)

/-- **C113** fails: `c[-1:] = [9]` on a column of two values appends -/
theorem C113_fails : ¬ C113_statement := by
  intro h
  obtain ⟨w', h1, h2⟩ := h 4 (by decide) [.new [1, 2], .op 0 (.setSlice { start := some (-1) } [9])]
  have h3 : (({} : World Nat Unit).run (fun _ => ()) 4 [.new [1, 2], .op 0 (.setSlice { start := some (-1) } [9])]).map World.values = some [[1, 2, 9]] := by decide
  rw [h1] at h3
  have h4 : w'.values = [[1, 2, 9]] := by simpa using h3
  rw [h4] at h2
  exact absurd (congrArg Prod.fst h2) (by decide)

/-- a program with two columns that share pages: its steps are right, and it ends with the same values as on lists -/
example : ∀ c o, Cmd.op c o ∈ ([.new [1, 2, 3], .copy 0, .op 0 (.setInt (-1) 7), .op 1 (.extendCol 0), .op 1 (.setSlice { start := some 1, stop := some 2 } [8, 8]), .op 0 (.setInt 9 0)] :
    List (Cmd Nat)) → OpAlways o := by
  intro c o h
  simp only [List.mem_cons, Cmd.op.injEq, reduceCtorEq, List.not_mem_nil, or_false, false_or] at h
  rcases h with ⟨rfl, rfl⟩ | ⟨rfl, rfl⟩ | ⟨rfl, rfl⟩ | ⟨rfl, rfl⟩ <;> simp [OpAlways]
example : listRun [] ([.new [1, 2, 3], .copy 0, .op 0 (.setInt (-1) 7), .op 1 (.extendCol 0), .op 1 (.setSlice { start := some 1, stop := some 2 } [8, 8]), .op 0 (.setInt 9 0)] :
    List (Cmd Nat)) = ([[1, 2, 7], [1, 8, 8, 3, 1, 2, 7]], [none, none, none, none, none, some .index]) := by decide
/-- a right step that depends on the pages: `del c[1]` -/
example : OpRight [[1, 2], [3]] (ColOp.delInt 1 : ColOp Nat) := ⟨[], [1, 2], [[3]], rfl, rfl, by decide, by decide⟩

end Tablite
