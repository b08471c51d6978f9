import Verif.Props.Pivot
import Verif.Model.Diff
/-!
# C61 diff: the marked rows hold both tables
-/

namespace Tablite
set_option linter.unusedSectionVars false

section
variable {ν α : Type} [DecidableEq ν] [DecidableEq α]

/-- what difflib promises about opcodes: from `(i, j)` on they cover both lists without gap; equal blocks hold rows that compare equal -/
inductive Covers (R : List α → List α → Prop) (t1 t2 : List (List α)) : Nat → Nat → List Opcode → Prop
  | done : Covers R t1 t2 t1.length t2.length []
  | insert (i j j' : Nat) (ops : List Opcode) (h : j ≤ j') (h' : j' ≤ t2.length) (rest : Covers R t1 t2 i j' ops) : Covers R t1 t2 i j (⟨.insert, i, i, j, j'⟩ :: ops)
  | delete (i i' j : Nat) (ops : List Opcode) (h : i ≤ i') (h' : i' ≤ t1.length) (rest : Covers R t1 t2 i' j ops) : Covers R t1 t2 i j (⟨.delete, i, i', j, j⟩ :: ops)
  | equal (i i' j j' : Nat) (ops : List Opcode) (h : i ≤ i') (h1 : i' ≤ t1.length) (h' : j ≤ j') (h2 : j' ≤ t2.length)
      (heq : List.Forall₂ R ((t1.take i').drop i) ((t2.take j').drop j)) (rest : Covers R t1 t2 i' j' ops) : Covers R t1 t2 i j (⟨.equal, i, i', j, j'⟩ :: ops)
  | replace (i i' j j' : Nat) (ops : List Opcode) (h : i ≤ i') (h1 : i' ≤ t1.length) (h' : j ≤ j') (h2 : j' ≤ t2.length)
      (rest : Covers R t1 t2 i' j' ops) : Covers R t1 t2 i j (⟨.replace, i, i', j, j'⟩ :: ops)

/-- a row of the outcome with its two marks -/
abbrev OutRow (α : Type) := List α × Mark × Mark

/-- the rows one opcode gives -/
def outOf (t1 t2 : List (List α)) (o : Opcode) : List (OutRow α) :=
  match o.tag with
  | .insert => ((t2.take o.b2).drop o.a2).map fun r => (r, .minus, .plus)
  | .delete => ((t1.take o.b1).drop o.a1).map fun r => (r, .plus, .minus)
  | .equal => ((t2.take o.b2).drop o.a2).map fun r => (r, .same, .same)
  | .replace => ((t2.take o.b2).drop o.a2).map fun r => (r, .repl, .repl)

/-- a column of the outcome -/
def outCol (nul : α) (mark : Mark → α) (columns : List ν) (first second : ν) (O : List (OutRow α)) (x : ν) : List α :=
  if x = first then O.map fun r => mark r.2.1 else if x = second then O.map fun r => mark r.2.2 else O.map fun r => r.1.getD (posOf x columns) nul

theorem outCol_append (nul : α) (mark : Mark → α) (columns : List ν) (first second : ν) (O P : List (OutRow α)) (x : ν) :
    outCol nul mark columns first second (O ++ P) x = outCol nul mark columns first second O x ++ outCol nul mark columns first second P x := by
  unfold outCol
  split
  · rw [List.map_append]
  · split <;> rw [List.map_append]

theorem zip_posOf {β : Type} (columns : List ν) (hnd : columns.Nodup) (G : Nat → β) :
    columns.zip ((List.range columns.length).map G) = columns.map fun x => (x, G (posOf x columns)) := by
  apply List.ext_getElem
  · simp
  · intro i h1 h2
    simp only [List.getElem_zip, List.getElem_map, List.getElem_range]
    rw [posOf_getElem columns hnd]

theorem zipStar_width (nul : α) (rows : List (List α)) (w : Nat) (hw : ∀ r ∈ rows, r.length = w) (hne : rows ≠ []) :
    zipStar nul rows = (List.range w).map fun j => rows.map fun x => x.getD j nul := by
  match rows, hne with
  | r :: rest, _ =>
    unfold zipStar
    have H : ∀ (l : List (List α)), (∀ x ∈ l, x.length = w) → l.foldl (fun n x => min n x.length) w = w := by
      intro l
      induction l with
      | nil => intro _; rfl
      | cons a u ih =>
        intro h
        rw [List.foldl_cons, h a (by simp), Nat.min_self]
        exact ih fun x hx => h x (by simp [hx])
    dsimp only
    rw [hw r (by simp), H rest fun x hx => hw x (by simp [hx])]

theorem diffEmit_ok (nul : α) (mark : Mark → α) (columns : List ν) (first second : ν) (hks : (columns ++ [first, second]).Nodup) (rows : List (List α))
    (hw : ∀ r ∈ rows, r.length = columns.length) (a b : Nat) (hb : b ≤ rows.length) (m1 m2 : Mark) (O : List (OutRow α)) :
    diffEmit nul columns first second (mark m1) (mark m2) rows a b ((columns ++ [first, second]).map fun x => (x, outCol nul mark columns first second O x)) =
      (columns ++ [first, second]).map fun x => (x, outCol nul mark columns first second (O ++ ((rows.take b).drop a).map fun r => (r, m1, m2)) x) := by
  have hcols : columns.Nodup := (List.nodup_append.1 hks).1
  have hfs : first ≠ second := by
    have := (List.nodup_append.1 hks).2.1
    simp at this
    exact this
  have hfc : first ∉ columns := fun h => (List.nodup_append.1 hks).2.2 _ h _ (by simp) rfl
  have hsc : second ∉ columns := fun h => (List.nodup_append.1 hks).2.2 _ h _ (by simp) rfl
  generalize hS : (rows.take b).drop a = S
  have hSl : S.length = b - a := by rw [← hS]; simp; omega
  have hSw : ∀ r ∈ S, r.length = columns.length := by
    intro r hr
    rw [← hS] at hr
    exact hw r (List.mem_of_mem_take (List.mem_of_mem_drop hr))
  unfold diffEmit
  dsimp only
  rw [hS]
  have hfold : (columns.zip (zipStar nul S)).foldl (fun d p => newsExtend p.1 p.2 d) ((columns ++ [first, second]).map fun x => (x, outCol nul mark columns first second O x)) =
      (columns ++ [first, second]).map fun x => (x, outCol nul mark columns first second O x ++ if x ∈ columns then S.map (fun r => r.getD (posOf x columns) nul) else []) := by
    by_cases hne : S = []
    · subst hne
      have : zipStar nul ([] : List (List α)) = [] := rfl
      rw [this, List.zip_nil_right]
      simp
    · rw [zipStar_width nul S columns.length hSw hne, zip_posOf columns hcols]
      have := foldl_upd ([] : List α) (fun c v => v ++ c) (columns ++ [first, second]) hks
        (columns.map fun x => (x, S.map fun r => r.getD (posOf x columns) nul)) (by rw [List.map_map]; simpa [Function.comp_def] using hcols)
        (by
          intro e he
          obtain ⟨x, hx, rfl⟩ := List.mem_map.1 he
          simp [hx]) (fun x => outCol nul mark columns first second O x)
      unfold newsExtend
      rw [this]
      apply List.map_congr_left
      intro x _
      rw [dGet_map]
      by_cases hx : x ∈ columns
      · rw [if_pos hx, if_pos hx]
      · rw [if_neg hx, if_neg hx, List.append_nil]
  rw [hfold]
  unfold newsExtend
  rw [dUpd_in _ first _ _ hks (by simp), dUpd_in _ second _ _ hks (by simp)]
  apply List.map_congr_left
  intro x hx
  rw [outCol_append]
  congr 1
  by_cases h2 : x = second
  · subst h2
    rw [if_pos rfl, if_neg (fun h => hfs h.symm), if_neg hsc, List.append_nil]
    congr 1
    unfold outCol
    rw [if_neg (fun h => hfs h.symm), if_pos rfl, List.map_map, ← hSl]
    apply List.ext_getElem <;> simp
  · rw [if_neg h2]
    by_cases h1 : x = first
    · subst h1
      rw [if_pos rfl, if_neg hfc, List.append_nil]
      congr 1
      unfold outCol
      rw [if_pos rfl, List.map_map, ← hSl]
      apply List.ext_getElem <;> simp
    · rw [if_neg h1]
      have hxc : x ∈ columns := by
        simp only [List.mem_append, List.mem_cons, List.not_mem_nil, or_false] at hx
        rcases hx with h | h | h
        · exact h
        · exact absurd h h1
        · exact absurd h h2
      rw [if_pos hxc]
      congr 1
      unfold outCol
      rw [if_neg h1, if_neg h2, List.map_map]
      rfl

/-- within the bounds of the tables -/
def OpOk (t1 t2 : List (List α)) (o : Opcode) : Prop := o.b1 ≤ t1.length ∧ o.b2 ≤ t2.length

theorem diffStep_ok (nul : α) (mark : Mark → α) (columns : List ν) (first second : ν) (hks : (columns ++ [first, second]).Nodup) (t1 t2 : List (List α))
    (h1 : ∀ r ∈ t1, r.length = columns.length) (h2 : ∀ r ∈ t2, r.length = columns.length) (ops : List Opcode) (hops : ∀ o ∈ ops, OpOk t1 t2 o) (O : List (OutRow α)) :
    ops.foldl (diffStep nul mark columns first second t1 t2) ((columns ++ [first, second]).map fun x => (x, outCol nul mark columns first second O x)) =
      (columns ++ [first, second]).map fun x => (x, outCol nul mark columns first second (O ++ ops.flatMap (outOf t1 t2)) x) := by
  induction ops generalizing O with
  | nil => simp
  | cons o rest ih =>
    obtain ⟨b1, b2⟩ := hops o (by simp)
    rw [List.foldl_cons, List.flatMap_cons, ← List.append_assoc]
    have : diffStep nul mark columns first second t1 t2 ((columns ++ [first, second]).map fun x => (x, outCol nul mark columns first second O x)) o =
        (columns ++ [first, second]).map fun x => (x, outCol nul mark columns first second (O ++ outOf t1 t2 o) x) := by
      unfold diffStep outOf
      cases o.tag
      · exact diffEmit_ok nul mark columns first second hks t2 h2 _ _ b2 _ _ O
      · exact diffEmit_ok nul mark columns first second hks t1 h1 _ _ b1 _ _ O
      · exact diffEmit_ok nul mark columns first second hks t2 h2 _ _ b2 _ _ O
      · exact diffEmit_ok nul mark columns first second hks t2 h2 _ _ b2 _ _ O
    rw [this]
    exact ih (fun x hx => hops x (by simp [hx])) _

theorem Covers.ok {R : List α → List α → Prop} {t1 t2 : List (List α)} {i j : Nat} {ops : List Opcode} (h : Covers R t1 t2 i j ops) :
    i ≤ t1.length ∧ j ≤ t2.length ∧ ∀ o ∈ ops, OpOk t1 t2 o := by
  induction h with
  | done => exact ⟨le_refl _, le_refl _, by simp⟩
  | insert i j j' ops h h' rest ih =>
    refine ⟨ih.1, by omega, ?_⟩
    intro o ho
    rcases List.mem_cons.1 ho with rfl | ho
    · exact ⟨ih.1, h'⟩
    · exact ih.2.2 o ho
  | delete i i' j ops h h' rest ih =>
    refine ⟨by omega, ih.2.1, ?_⟩
    intro o ho
    rcases List.mem_cons.1 ho with rfl | ho
    · exact ⟨h', ih.2.1⟩
    · exact ih.2.2 o ho
  | equal i i' j j' ops h h1 h' h2 heq rest ih =>
    refine ⟨by omega, by omega, ?_⟩
    intro o ho
    rcases List.mem_cons.1 ho with rfl | ho
    · exact ⟨h1, h2⟩
    · exact ih.2.2 o ho
  | replace i i' j j' ops h h1 h' h2 rest ih =>
    refine ⟨by omega, by omega, ?_⟩
    intro o ho
    rcases List.mem_cons.1 ho with rfl | ho
    · exact ⟨h1, h2⟩
    · exact ih.2.2 o ho

theorem slice_drop {β : Type} (l : List β) (i j : Nat) (h : i ≤ j) : (l.take j).drop i ++ l.drop j = l.drop i := by
  rw [List.drop_take]
  have : l.drop j = (l.drop i).drop (j - i) := by rw [List.drop_drop]; congr 1; omega
  rw [this, List.take_append_drop]

theorem filter_marks {β : Type} (p : Mark × Mark → Bool) (S : List β) (m : Mark × Mark) : ((S.map fun r => (r, m)).filter fun r => p r.2).map (·.1) = if p m then S else [] := by
  by_cases h : p m = true
  · rw [if_pos h]
    induction S with
    | nil => rfl
    | cons a u ih => rw [List.map_cons, List.filter_cons_of_pos (by simpa using h), List.map_cons, ih]
  · rw [if_neg h]
    induction S with
    | nil => rfl
    | cons a u ih => rw [List.map_cons, List.filter_cons_of_neg (by simpa using h), ih]

/-- the rows whose second mark is not "-" are the rows of the second table -/
theorem Covers.second {R : List α → List α → Prop} {t1 t2 : List (List α)} {i j : Nat} {ops : List Opcode} (h : Covers R t1 t2 i j ops) :
    ((ops.flatMap (outOf t1 t2)).filter fun r => decide (r.2.2 ≠ .minus)).map (·.1) = t2.drop j := by
  induction h with
  | done => simp
  | insert i j j' ops h h' rest ih =>
    rw [List.flatMap_cons, List.filter_append, List.map_append, ih]
    have := filter_marks (fun m => decide (m.2 ≠ .minus)) ((t2.take j').drop j) (.minus, .plus)
    simp only [outOf]
    rw [this, if_pos (by decide), slice_drop _ _ _ h]
  | delete i i' j ops h h' rest ih =>
    rw [List.flatMap_cons, List.filter_append, List.map_append, ih]
    have := filter_marks (fun m => decide (m.2 ≠ .minus)) ((t1.take i').drop i) (.plus, .minus)
    simp only [outOf]
    rw [this, if_neg (by decide), List.nil_append]
  | equal i i' j j' ops h h1 h' h2 heq rest ih =>
    rw [List.flatMap_cons, List.filter_append, List.map_append, ih]
    have := filter_marks (fun m => decide (m.2 ≠ .minus)) ((t2.take j').drop j) (.same, .same)
    simp only [outOf]
    rw [this, if_pos (by decide), slice_drop _ _ _ h']
  | replace i i' j j' ops h h1 h' h2 rest ih =>
    rw [List.flatMap_cons, List.filter_append, List.map_append, ih]
    have := filter_marks (fun m => decide (m.2 ≠ .minus)) ((t2.take j').drop j) (.repl, .repl)
    simp only [outOf]
    rw [this, if_pos (by decide), slice_drop _ _ _ h']

/-- without replacements the rows whose first mark is not "-" are the rows of the first table -/
theorem Covers.first {R : List α → List α → Prop} (hR : ∀ r, R r r) {t1 t2 : List (List α)} {i j : Nat} {ops : List Opcode} (h : Covers R t1 t2 i j ops)
    (hno : ∀ o ∈ ops, o.tag ≠ .replace) :
    List.Forall₂ R (t1.drop i) (((ops.flatMap (outOf t1 t2)).filter fun r => decide (r.2.1 ≠ .minus)).map (·.1)) := by
  induction h with
  | done => simp
  | insert i j j' ops h h' rest ih =>
    rw [List.flatMap_cons, List.filter_append, List.map_append]
    have := filter_marks (fun m => decide (m.1 ≠ .minus)) ((t2.take j').drop j) (.minus, .plus)
    simp only [outOf]
    rw [this, if_neg (by decide), List.nil_append]
    exact ih fun o ho => hno o (by simp [ho])
  | delete i i' j ops h h' rest ih =>
    rw [List.flatMap_cons, List.filter_append, List.map_append]
    have := filter_marks (fun m => decide (m.1 ≠ .minus)) ((t1.take i').drop i) (.plus, .minus)
    simp only [outOf]
    rw [this, if_pos (by decide), ← slice_drop t1 _ _ h]
    exact List.rel_append (List.forall₂_same.2 fun x _ => hR x) (ih fun o ho => hno o (by simp [ho]))
  | equal i i' j j' ops h h1 h' h2 heq rest ih =>
    rw [List.flatMap_cons, List.filter_append, List.map_append]
    have := filter_marks (fun m => decide (m.1 ≠ .minus)) ((t2.take j').drop j) (.same, .same)
    simp only [outOf]
    rw [this, if_pos (by decide), ← slice_drop t1 _ _ h]
    exact List.rel_append heq (ih fun o ho => hno o (by simp [ho]))
  | replace i i' j j' ops h h1 h' h2 rest ih =>
    exact absurd rfl (hno ⟨.replace, i, i', j, j'⟩ (by simp))

/-- the rows of a table as lists -/
def tupleRows (nul : α) (t : Tbl ν α) (n : Nat) : List (List α) := (List.range n).map fun i => t.map fun c => (colIter c.2).getD i nul

theorem diffRows_ok (nul : α) (t : Tbl ν α) (n : Nat) (hr : Rect t n) (cols : List ν) (hc : cols ≠ []) (ht : t ≠ []) : diffRows nul t cols = .ok (tupleRows nul t n) := by
  match cols, hc with
  | [_], _ =>
    unfold diffRows tblIter
    match t, ht with
    | c :: rest, _ =>
      dsimp only
      have H : ∀ (l : Tbl ν α), (∀ d ∈ l, colLen d.2 = n) → l.foldl (fun m d => min m (colLen d.2)) n = n := by
        intro l
        induction l with
        | nil => intro _; rfl
        | cons a u ih =>
          intro h
          rw [List.foldl_cons, h a (by simp), Nat.min_self]
          exact ih fun x hx => h x (by simp [hx])
      rw [hr c (by simp), H rest fun d hd => hr d (by simp [hd])]
      rfl
  | _ :: _ :: _, _ =>
    unfold diffRows
    dsimp only
    rw [C15_rows, tblLen_rect t n hr ht]
    rfl

theorem diff_ok (R : List α → List α → Prop) (ps : Nat) (hps : 0 < ps) (mk : ν → Nat → ν) (hmk : ∀ d a b, mk d a = mk d b → a = b) (npArr : List α → List α)
    (opcodes : List (List α) → List (List α) → List Opcode) (nul : α) (mark : Mark → α) (n1 n2 : ν) (t o : Tbl ν α) (n m : Nat) (cols : List ν)
    (ht : t.map (·.1) = cols) (ho : o.map (·.1) = cols) (hnd : cols.Nodup) (hne : cols ≠ []) (hrt : Rect t n) (hro : Rect o m)
    (hn : uniqueName mk n1 cols ≠ uniqueName mk n2 cols)
    (hops : Covers R (tupleRows nul t n) (tupleRows nul o m) 0 0 (opcodes (tupleRows nul t n) (tupleRows nul o m)))
    (hnp : ∀ x ∈ cols, ∀ l : List α, (∀ v ∈ l, (∃ i < n, v = cell nul t x i) ∨ ∃ i < m, v = cell nul o x i) → npArr l = l)
    (hnpm : ∀ l : List Mark, npArr (l.map mark) = l.map mark)
    (columns : Option (List ν)) (hcol : columns = none ∨ columns = some cols) :
    ∃ t', diff ps mk npArr opcodes nul mark n1 n2 t o columns = .ok t' ∧
      tview t' = (cols.zipIdx.map fun c => (c.1, ((opcodes (tupleRows nul t n) (tupleRows nul o m)).flatMap (outOf (tupleRows nul t n) (tupleRows nul o m))).map fun r => r.1.getD c.2 nul)) ++
        [(uniqueName mk n1 cols, ((opcodes (tupleRows nul t n) (tupleRows nul o m)).flatMap (outOf (tupleRows nul t n) (tupleRows nul o m))).map fun r => mark r.2.1),
          (uniqueName mk n2 cols, ((opcodes (tupleRows nul t n) (tupleRows nul o m)).flatMap (outOf (tupleRows nul t n) (tupleRows nul o m))).map fun r => mark r.2.2)] := by
  have hcols : columns.getD ((t.map (·.1)).filter fun x => x ∈ o.map (·.1)) = cols := by
    rcases hcol with h | h
    · rw [h, ht, ho]
      simp
    · rw [h]; rfl
  have ht0 : t ≠ [] := by intro e; subst e; exact hne ht.symm
  have ho0 : o ≠ [] := by intro e; subst e; exact hne ho.symm
  have hall : cols.all (fun x => x ∈ t.map (·.1) ∧ x ∈ o.map (·.1)) = true := by
    rw [List.all_eq_true]
    intro x hx
    rw [ht, ho]
    simpa using hx
  have hks : (cols ++ [uniqueName mk n1 cols, uniqueName mk n2 cols]).Nodup := by
    rw [List.nodup_append]
    refine ⟨hnd, by simpa using hn, ?_⟩
    intro a ha b hb e
    subst e
    simp only [List.mem_cons, List.not_mem_nil, or_false] at hb
    rcases hb with h | h
    · exact (C47_unique_name mk n1 cols (hmk n1)).1 (h ▸ ha)
    · exact (C47_unique_name mk n2 cols (hmk n2)).1 (h ▸ ha)
  have hwt : ∀ r ∈ tupleRows nul t n, r.length = cols.length := by
    intro r hr
    obtain ⟨i, _, rfl⟩ := List.mem_map.1 hr
    rw [← ht]; simp
  have hwo : ∀ r ∈ tupleRows nul o m, r.length = cols.length := by
    intro r hr
    obtain ⟨i, _, rfl⟩ := List.mem_map.1 hr
    rw [← ho]; simp
  have hstep := diffStep_ok nul mark cols (uniqueName mk n1 cols) (uniqueName mk n2 cols) hks (tupleRows nul t n) (tupleRows nul o m) hwt hwo
    (opcodes (tupleRows nul t n) (tupleRows nul o m)) hops.ok.2.2 []
  have hinit : (((cols ++ [uniqueName mk n1 cols, uniqueName mk n2 cols]).map fun x => (x, ([] : Pages α))).map fun c => (c.1, ([] : List α))) =
      (cols ++ [uniqueName mk n1 cols, uniqueName mk n2 cols]).map fun x => (x, outCol nul mark cols (uniqueName mk n1 cols) (uniqueName mk n2 cols) [] x) := by
    rw [List.map_map]
    apply List.map_congr_left
    intro x _
    simp [outCol]
  unfold diff
  dsimp only
  rw [hcols, if_neg (by rw [hall]; simp), diffRows_ok nul t n hrt cols hne ht0, diffRows_ok nul o m hro cols hne ho0]
  dsimp only [bind, Except.bind]
  rw [addNames _ hks, hinit, hstep, List.nil_append]
  generalize hO : (opcodes (tupleRows nul t n) (tupleRows nul o m)).flatMap (outOf (tupleRows nul t n) (tupleRows nul o m)) = O
  have hmem : ∀ r ∈ O, r.1 ∈ tupleRows nul t n ∨ r.1 ∈ tupleRows nul o m := by
    intro r hr
    rw [← hO] at hr
    obtain ⟨op, _, hr⟩ := List.mem_flatMap.1 hr
    unfold outOf at hr
    cases htag : op.tag <;> rw [htag] at hr <;> obtain ⟨q, hq, rfl⟩ := List.mem_map.1 hr
    · exact Or.inr (List.mem_of_mem_take (List.mem_of_mem_drop hq))
    · exact Or.inl (List.mem_of_mem_take (List.mem_of_mem_drop hq))
    · exact Or.inr (List.mem_of_mem_take (List.mem_of_mem_drop hq))
    · exact Or.inr (List.mem_of_mem_take (List.mem_of_mem_drop hq))
  have hf1 : uniqueName mk n1 cols ∉ cols := (C47_unique_name mk n1 cols (hmk n1)).1
  have hf2 : uniqueName mk n2 cols ∉ cols := (C47_unique_name mk n2 cols (hmk n2)).1
  have hcellOf : ∀ (u : Tbl ν α) (k : Nat), u.map (·.1) = cols → ∀ x ∈ cols, ∀ i, (u.map fun c => (colIter c.2).getD i nul).getD (posOf x cols) nul = cell nul u x i := by
    intro u k hu x hx i
    have hp := posOf_lt x cols hx
    have hp' : posOf x cols < u.length := by rw [← hu] at hp ⊢; simpa using hp
    rw [List.getD_eq_getElem?_getD, List.getElem?_eq_getElem (by simpa using hp'), Option.getD_some, List.getElem_map]
    have hname : (u[posOf x cols]'hp').1 = x := by
      have : (u.map (·.1))[posOf x cols]'(by simpa using hp') = x := by
        simp only [hu]
        exact List.getElem_idxOf hp
      simpa using this
    have := dGet_of_mem u (by rw [hu]; exact hnd) _ (List.getElem_mem hp')
    rw [hname] at this
    unfold cell
    rw [this]
    rfl
  obtain ⟨p', e1, e2⟩ := flush_ok ps hps npArr (cols ++ [uniqueName mk n1 cols, uniqueName mk n2 cols]) hks (fun _ => ([] : Pages α))
    (fun x => outCol nul mark cols (uniqueName mk n1 cols) (uniqueName mk n2 cols) O x) (by
      intro x hx
      by_cases h1 : x = uniqueName mk n1 cols
      · unfold outCol
        rw [if_pos h1]
        have := hnpm (O.map fun r => r.2.1)
        rw [List.map_map] at this
        exact this
      · by_cases h2 : x = uniqueName mk n2 cols
        · unfold outCol
          rw [if_neg h1, if_pos h2]
          have := hnpm (O.map fun r => r.2.2)
          rw [List.map_map] at this
          exact this
        · have hxc : x ∈ cols := by
            simp only [List.mem_append, List.mem_cons, List.not_mem_nil, or_false] at hx
            rcases hx with h | h | h
            · exact h
            · exact absurd h h1
            · exact absurd h h2
          apply hnp x hxc
          intro v hv
          unfold outCol at hv
          rw [if_neg h1, if_neg h2] at hv
          obtain ⟨r, hr, rfl⟩ := List.mem_map.1 hv
          rcases hmem r hr with h | h
          · obtain ⟨i, hi, e⟩ := List.mem_map.1 h
            rw [← e]
            exact Or.inl ⟨i, List.mem_range.1 hi, hcellOf t n ht x hxc i⟩
          · obtain ⟨i, hi, e⟩ := List.mem_map.1 h
            rw [← e]
            exact Or.inr ⟨i, List.mem_range.1 hi, hcellOf o m ho x hxc i⟩)
  rw [e1]
  refine ⟨_, rfl, ?_⟩
  have hcell : ∀ x ∈ cols ++ [uniqueName mk n1 cols, uniqueName mk n2 cols], (x, colIter (p' x)) = (x, outCol nul mark cols (uniqueName mk n1 cols) (uniqueName mk n2 cols) O x) := by
    intro x hx
    rw [e2 x hx]
    simp [colIter_eq]
  unfold tview
  rw [List.map_map]
  have : ((cols ++ [uniqueName mk n1 cols, uniqueName mk n2 cols]).map ((fun c : ν × Pages α => (c.1, colIter c.2)) ∘ fun x => (x, p' x))) =
      (cols ++ [uniqueName mk n1 cols, uniqueName mk n2 cols]).map fun x => (x, outCol nul mark cols (uniqueName mk n1 cols) (uniqueName mk n2 cols) O x) :=
    List.map_congr_left hcell
  rw [this, List.map_append]
  congr 1
  · apply List.ext_getElem
    · simp
    · intro i h1 h2
      simp only [List.getElem_map, List.getElem_zipIdx, Nat.zero_add]
      have hi : i < cols.length := by simpa using h1
      have hx : cols[i] ∈ cols := List.getElem_mem hi
      unfold outCol
      rw [if_neg (fun h : cols[i] = uniqueName mk n1 cols => hf1 (h ▸ hx)), if_neg (fun h : cols[i] = uniqueName mk n2 cols => hf2 (h ▸ hx)), posOf_getElem cols hnd]
  · simp only [List.map_cons, List.map_nil, outCol, if_true]
    rw [if_neg (fun h => hn h.symm)]

/-- the table made of marked rows -/
def markedView (nul : α) (mark : Mark → α) (cols : List ν) (first second : ν) (O : List (OutRow α)) : List (ν × List α) :=
  (cols.zipIdx.map fun c => (c.1, O.map fun r => r.1.getD c.2 nul)) ++ [(first, O.map fun r => mark r.2.1), (second, O.map fun r => mark r.2.2)]

/-- C61, for two tables with the same columns and values numpy leaves alone: the outcome is a list of rows with marks; the rows not marked "-" in the second
column are the rows of the second table, and if difflib reports no replacement, the rows not marked "-" in the first column are the rows of the first table up
to the equality difflib used.  Missing from the full statement: replacements (the rows of the first table are dropped) and tables with different columns. -/
theorem C61_partial (R : List α → List α → Prop) (hR : ∀ r, R r r) (ps : Nat) (hps : 0 < ps) (mk : ν → Nat → ν) (hmk : ∀ d a b, mk d a = mk d b → a = b)
    (npArr : List α → List α)
    (opcodes : List (List α) → List (List α) → List Opcode) (nul : α) (mark : Mark → α) (n1 n2 : ν) (t o : Tbl ν α) (n m : Nat) (cols : List ν)
    (ht : t.map (·.1) = cols) (ho : o.map (·.1) = cols) (hnd : cols.Nodup) (hne : cols ≠ []) (hrt : Rect t n) (hro : Rect o m)
    (hn : uniqueName mk n1 cols ≠ uniqueName mk n2 cols)
    (hops : Covers R (tupleRows nul t n) (tupleRows nul o m) 0 0 (opcodes (tupleRows nul t n) (tupleRows nul o m)))
    (hnp : ∀ x ∈ cols, ∀ l : List α, (∀ v ∈ l, (∃ i < n, v = cell nul t x i) ∨ ∃ i < m, v = cell nul o x i) → npArr l = l)
    (hnpm : ∀ l : List Mark, npArr (l.map mark) = l.map mark)
    (columns : Option (List ν)) (hcol : columns = none ∨ columns = some cols) :
    ∃ t' O, diff ps mk npArr opcodes nul mark n1 n2 t o columns = .ok t' ∧
      tview t' = markedView nul mark cols (uniqueName mk n1 cols) (uniqueName mk n2 cols) O ∧
      (O.filter fun r => decide (r.2.2 ≠ .minus)).map (·.1) = tupleRows nul o m ∧
      ((∀ op ∈ opcodes (tupleRows nul t n) (tupleRows nul o m), op.tag ≠ .replace) →
        List.Forall₂ R (tupleRows nul t n) ((O.filter fun r => decide (r.2.1 ≠ .minus)).map (·.1))) ∧
      (∀ r ∈ O, r.2 ∈ [(.minus, .plus), (.plus, .minus), (.same, .same), (.repl, .repl)]) := by
  obtain ⟨t', h1, h2⟩ := diff_ok R ps hps mk hmk npArr opcodes nul mark n1 n2 t o n m cols ht ho hnd hne hrt hro hn hops hnp hnpm columns hcol
  refine ⟨t', _, h1, h2, by simpa using hops.second, fun hno => by simpa using hops.first hR hno, ?_⟩
  intro r hr
  obtain ⟨op, _, hr⟩ := List.mem_flatMap.1 hr
  unfold outOf at hr
  cases htag : op.tag <;> rw [htag] at hr <;> obtain ⟨q, hq, rfl⟩ := List.mem_map.1 hr <;> simp

end

/-- the names "1st" and "2nd" stay different whatever the columns are called -/
theorem diff_names (cols : List String) : uniqueName suffixed "1st" cols ≠ uniqueName suffixed "2nd" cols := by
  have H : ∀ d : String, d.toList ≠ [] → (uniqueName suffixed d cols).toList.head? = d.toList.head? := by
    intro d hd
    by_cases h : d ∈ cols
    · obtain ⟨i, _, e, _⟩ := (C47_unique_name_string d cols).2.2 h
      rw [e, String.toList_append, String.toList_append]
      cases hl : d.toList with
      | nil => exact absurd hl hd
      | cons a u => rfl
    · rw [(C47_unique_name_string d cols).2.1 h]
  intro e
  have h1 := H "1st" (by decide)
  have h2 := H "2nd" (by decide)
  rw [e, h2] at h1
  revert h1
  decide

/-- the marks of the code -/
def markText : Mark → GVal
  | .minus => .str "-"
  | .plus => .str "+"
  | .same => .str "="
  | .repl => .str "r"

/-- the full claim for any two rectangular tables with a common column: whatever opcodes difflib gives, the rows of both tables, restricted to the compared
columns, can be read off -/
def C61_statement : Prop :=
  ∀ (ps : Nat) (opcodes : List (List GVal) → List (List GVal) → List Opcode) (t o : Tbl String GVal) (n m : Nat) (cols : List String), 0 < ps → TblWF t → TblWF o →
    Rect t n → Rect o m → cols = (t.map (·.1)).filter (fun x => x ∈ o.map (·.1)) → cols ≠ [] →
    (∀ t1 t2, Covers (· = ·) t1 t2 0 0 (opcodes t1 t2)) →
    ∃ t' O, diff ps suffixed (npArray npText) opcodes .none markText "1st" "2nd" t o none = .ok t' ∧
      tview t' = markedView .none markText cols (uniqueName suffixed "1st" cols) (uniqueName suffixed "2nd" cols) O ∧
      (O.filter fun r => decide (r.2.2 ≠ .minus)).map (·.1) = keyRows .none o cols m ∧
      (O.filter fun r => decide (r.2.1 ≠ .minus)).map (·.1) = keyRows .none t cols n

/-- a difflib that always reports one replacement -/
def replaceAll (t1 t2 : List (List GVal)) : List Opcode := [⟨.replace, 0, t1.length, 0, t2.length⟩]

theorem replaceAll_covers (t1 t2 : List (List GVal)) : Covers (· = ·) t1 t2 0 0 (replaceAll t1 t2) :=
  .replace 0 t1.length 0 t2.length [] (by omega) (le_refl _) (by omega) (le_refl _) .done

/-- one row each, different: the row of the first table is lost -/
theorem C61_fails : ¬ C61_statement := by
  intro h
  obtain ⟨t', O, h1, h2, _, h4⟩ := h 10 replaceAll [("a", [[.int 1]]), ("b", [[.int 1]])] [("a", [[.int 2]]), ("b", [[.int 2]])] 1 1 ["a", "b"] (by decide)
    (by unfold TblWF; decide) (by unfold TblWF; decide) (by unfold Rect; decide) (by unfold Rect; decide) (by decide) (by decide) replaceAll_covers
  have hv : viewOf (diff 10 suffixed (npArray npText) replaceAll .none markText "1st" "2nd" [("a", [[.int 1]]), ("b", [[.int 1]])] [("a", [[.int 2]]), ("b", [[.int 2]])] none) =
      markedView .none markText ["a", "b"] (uniqueName suffixed "1st" ["a", "b"]) (uniqueName suffixed "2nd" ["a", "b"]) O := by
    rw [h1]; exact h2
  have hc : viewOf (diff 10 suffixed (npArray npText) replaceAll .none markText "1st" "2nd" [("a", [[.int 1]]), ("b", [[.int 1]])] [("a", [[.int 2]]), ("b", [[.int 2]])] none) =
      [("a", [.int 2]), ("b", [.int 2]), ("1st", [.str "r"]), ("2nd", [.str "r"])] := by decide +kernel
  rw [hc] at hv
  have hcol : O.map (fun r => r.1.getD 0 .none) = [GVal.int 2] := by
    have := congrArg (fun v => (v.head?.map (·.2)).getD []) hv
    exact this.symm
  have hk : keyRows GVal.none ([("a", [[.int 1]]), ("b", [[.int 1]])] : Tbl String GVal) ["a", "b"] 1 = [[.int 1, .int 1]] := by decide +kernel
  rw [hk] at h4
  have hmem : [GVal.int 1, .int 1] ∈ (O.filter fun r => decide (r.2.1 ≠ .minus)).map (·.1) := by rw [h4]; simp
  obtain ⟨r, hr, e⟩ := List.mem_map.1 hmem
  have hr' := (List.mem_filter.1 hr).1
  have : GVal.int 1 ∈ O.map (fun r => r.1.getD 0 .none) := List.mem_map.2 ⟨r, hr', by rw [e]; rfl⟩
  rw [hcol] at this
  revert this
  decide

/-- a difflib for an empty second table -/
def deleteAll (t1 _t2 : List (List GVal)) : List Opcode := [⟨.delete, 0, t1.length, 0, 0⟩]

/-- only column `b` is shared: the rows compared are those of the whole table, and the values of column `a` appear under the name `b` -/
theorem C61_columns_fails :
    Covers (· = ·) (tupleRows GVal.none [("a", [[.int 1]]), ("b", [[.int 2]])] 1 : List (List GVal)) [] 0 0 (deleteAll (tupleRows GVal.none [("a", [[.int 1]]), ("b", [[.int 2]])] 1) []) ∧
    viewOf (diff 10 suffixed (npArray npText) deleteAll .none markText "1st" "2nd" [("a", [[.int 1]]), ("b", [[.int 2]])] [("b", [])] none) =
      [("b", [.int 1]), ("1st", [.str "+"]), ("2nd", [.str "-"])] := by
  refine ⟨?_, by decide +kernel⟩
  exact .delete 0 1 0 [] (by omega) (by decide) .done

/-- opcodes of two tables that share a row -/
example : Covers (· = ·) [[GVal.int 1], [.int 2]] [[GVal.int 2], [.int 3]] 0 0 [⟨.delete, 0, 1, 0, 0⟩, ⟨.equal, 1, 2, 0, 1⟩, ⟨.insert, 2, 2, 1, 2⟩] := by
  refine .delete 0 1 0 _ (by omega) (by decide) (.equal 1 2 0 1 _ (by omega) (by decide) (by omega) (by decide) ?_ (.insert 2 1 2 _ (by omega) (by decide) .done))
  simp

example : ∀ l : List Mark, npArray npText (l.map markText) = l.map markText := by
  intro l
  have h0 : ∀ m : Mark, (markText m).kind = 4 := by intro m; cases m <;> rfl
  unfold npArray
  rw [if_neg (by simp [h0])]
  by_cases hl : l = []
  · subst hl; rfl
  · rw [if_pos (by
      obtain ⟨m, hm⟩ := List.exists_mem_of_ne_nil l hl
      rw [List.any_eq_true]
      exact ⟨markText m, List.mem_map_of_mem hm, by simp [h0]⟩)]
    rw [List.map_map]
    apply List.map_congr_left
    intro m _
    cases m <;> rfl

end Tablite
