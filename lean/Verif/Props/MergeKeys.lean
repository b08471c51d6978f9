import Verif.Model.MergeKeys
import Verif.Props.Join
/-!
# C82 joins with merged keys
-/

namespace Tablite

set_option linter.unusedSectionVars false

section
variable {ν α : Type} [DecidableEq ν]

/-! ## tables as lists of named columns -/

theorem dict_repr {β : Type} (d : β) (L : List (ν × β)) (hn : (L.map (·.1)).Nodup) :
    L = (L.map (·.1)).map fun y => (y, (dGet y L).getD d) := by
  rw [List.map_map]
  conv => lhs; rw [← List.map_id L]
  apply List.map_congr_left
  intro c hc
  simp only [Function.comp, id]
  rw [dGet_of_mem L hn c hc]
  rfl

theorem pySetSlice_nat (l v : List α) (s e : Nat) (h1 : s ≤ e) (h2 : e ≤ l.length) :
    pySetSlice l (some (s : Int)) (some (e : Int)) v = l.take s ++ v ++ l.drop e := by
  have hind : ({ start := some (s : Int), stop := some (e : Int) } : PySlice).indices l.length = ((s : Int), (e : Int), 1) := by
    have h : ∀ x : Nat, x ≤ l.length → adjustBound l.length 0 l.length (x : Int) = (x : Int) := by
      intro x hx
      unfold adjustBound
      rw [if_neg (by omega)]
      split <;> omega
    simp only [PySlice.indices, PySlice.stepOr1, Option.getD_none, show ¬ (1 : Int) < 0 by omega, if_false]
    rw [h s (by omega), h e h2]
  unfold pySetSlice
  rw [hind]
  simp only
  have : (max (s : Int) (e : Int)).toNat = e := by omega
  rw [this, Int.toNat_natCast]

theorem overlay_get (l L : List α) (s e n i : Nat) (hl : l.length = n) (hL : L.length = n) (h1 : s ≤ e) (h2 : e ≤ n) :
    (l.take s ++ (L.take e).drop s ++ l.drop e)[i]? = if s ≤ i ∧ i < e then L[i]? else l[i]? := by
  have e1 : (l.take s).length = s := by simp; omega
  have e2 : ((L.take e).drop s).length = e - s := by simp; omega
  by_cases ha : i < s
  · rw [if_neg (by omega), List.append_assoc, List.getElem?_append_left (by omega), List.getElem?_take_of_lt ha]
  · by_cases hb : i < e
    · rw [if_pos ⟨by omega, hb⟩, List.getElem?_append_left (by rw [List.length_append]; omega), List.getElem?_append_right (by omega), e1,
        List.getElem?_drop, List.getElem?_take_of_lt (by omega)]
      congr 1
      omega
    · rw [if_neg (by omega), List.getElem?_append_right (by rw [List.length_append]; omega), List.length_append, e1, e2, List.getElem?_drop]
      congr 1
      omega

/-- writing parts of the lists `L` into the columns -/
theorem mergeWrite_fold (ps : Nat) (hps : 0 < ps) (n : Nat) (ks : List ν) (hks : ks.Nodup) (L : ν → List α) (ws : List (MergeTask ν × List α))
    (hw : ∀ w ∈ ws, w.1.left ∈ ks ∧ w.1.start ≤ w.1.end_ ∧ w.1.end_ ≤ n ∧ (L w.1.left).length = n ∧
      w.2 = ((L w.1.left).take w.1.end_).drop w.1.start) (t : Tbl ν α) (g : ν → List α) (ht : tview t = ks.map fun y => (y, g y))
    (hg : ∀ y ∈ ks, (g y).length = n) :
    ∃ (t' : Tbl ν α) (g' : ν → List α), ws.foldlM (mergeWrite ps) t = .ok t' ∧ tview t' = (ks.map fun y => (y, g' y)) ∧
      ∀ y ∈ ks, (g' y).length = n ∧
        ∀ i, ((∃ w ∈ ws, w.1.left = y ∧ w.1.start ≤ i ∧ i < w.1.end_) → (g' y)[i]? = (L y)[i]?) ∧
          ((¬ ∃ w ∈ ws, w.1.left = y ∧ w.1.start ≤ i ∧ i < w.1.end_) → (g' y)[i]? = (g y)[i]?) := by
  induction ws generalizing t g with
  | nil =>
    refine ⟨t, g, rfl, ht, fun y hy => ⟨hg y hy, fun i => ⟨?_, fun _ => rfl⟩⟩⟩
    rintro ⟨w, hw', _⟩
    cases hw'
  | cons w ws ih =>
    obtain ⟨h1, h2, h3, h4, h5⟩ := hw w List.mem_cons_self
    have hcol : (dGet w.1.left t).map colIter = some (g w.1.left) := by
      rw [← dGet_tview, ht, dGet_map, if_pos h1]
    cases hp : dGet w.1.left t with
    | none => rw [hp] at hcol; cases hcol
    | some p =>
      rw [hp] at hcol
      have hcol : colIter p = g w.1.left := by simpa using hcol
      have hlen := hg _ h1
      have hset := C05_slice_assign_partial ps hps p { start := some (w.1.start : Int), stop := some (w.1.end_ : Int) } w.2 (Or.inl rfl)
        (by simp) (by simp)
      cases hq : setSlice ps p { start := some (w.1.start : Int), stop := some (w.1.end_ : Int) } w.2 with
      | error er => rw [hq] at hset; cases hset
      | ok q =>
        rw [hq] at hset
        simp only [Except.map, Except.ok.injEq] at hset
        rw [hcol, pySetSlice_nat _ _ _ _ h2 (by omega)] at hset
        have hstep : mergeWrite ps t w = .ok (tblSet t w.1.left q) := by
          unfold mergeWrite
          rw [hp]
          simp only [hq, bind, Except.bind]
        have hview := tblSet_view t w.1.left q ks hks g ht
        rw [if_pos h1] at hview
        rw [h5] at hset
        obtain ⟨t', g', i1, i2, i3⟩ := ih (fun x hx => hw x (List.mem_cons_of_mem _ hx)) (tblSet t w.1.left q)
          (fun y => if y = w.1.left then colIter q else g y) hview (by
            intro y hy
            by_cases e : y = w.1.left
            · simp only [e, if_true]
              rw [hset]
              simp
              omega
            · simp only [e, if_false]
              exact hg y hy)
        refine ⟨t', g', ?_, i2, ?_⟩
        · rw [List.foldlM_cons, hstep]
          exact i1
        · intro y hy
          refine ⟨(i3 y hy).1, fun i => ?_⟩
          have hi := (i3 y hy).2 i
          by_cases hex : ∃ x ∈ ws, x.1.left = y ∧ x.1.start ≤ i ∧ i < x.1.end_
          · refine ⟨fun _ => hi.1 hex, fun hno => ?_⟩
            obtain ⟨x, hx, hx'⟩ := hex
            exact absurd ⟨x, List.mem_cons_of_mem _ hx, hx'⟩ hno
          · have hi := hi.2 hex
            by_cases e : y = w.1.left
            · rw [if_pos e, hset, overlay_get _ _ _ _ n i hlen h4 h2 h3] at hi
              by_cases hin : w.1.start ≤ i ∧ i < w.1.end_
              · rw [if_pos hin] at hi
                refine ⟨fun _ => by rw [e]; rw [e] at hi; exact hi, fun hno => ?_⟩
                exact absurd ⟨w, List.mem_cons_self, e.symm, hin⟩ hno
              · rw [if_neg hin] at hi
                refine ⟨?_, fun _ => by rw [e]; rw [e] at hi; exact hi⟩
                rintro ⟨x, hx, hx'⟩
                rcases List.mem_cons.1 hx with rfl | hx
                · exact absurd hx'.2 hin
                · exact absurd ⟨x, hx, hx'⟩ hex
            · rw [if_neg e] at hi
              refine ⟨?_, fun _ => hi⟩
              rintro ⟨x, hx, hx'⟩
              rcases List.mem_cons.1 hx with rfl | hx
              · exact absurd hx'.1.symm e
              · exact absurd ⟨x, hx, hx'⟩ hex

theorem mergeDelete_view (mk : ν → Nat → ν) (cols rk : List ν) (hn : (rk.map fun b => uniqueName mk b cols).Nodup) (t : Tbl ν α) (ks : List ν)
    (g : ν → List α) (h : tview t = ks.map fun y => (y, g y)) (hin : ∀ b ∈ rk, uniqueName mk b cols ∈ ks) :
    ∃ t', mergeDelete mk cols rk t = .ok t' ∧
      tview t' = (ks.filter fun y => y ∉ rk.map fun b => uniqueName mk b cols).map fun y => (y, g y) := by
  unfold mergeDelete
  induction rk generalizing t ks with
  | nil =>
    refine ⟨t, rfl, ?_⟩
    rw [h]
    simp
  | cons b rk ih =>
    rw [List.map_cons, List.nodup_cons] at hn
    obtain ⟨t1, h1, h2⟩ := tblDel_view t (uniqueName mk b cols) ks g h (hin b List.mem_cons_self)
    obtain ⟨t2, h3, h4⟩ := ih hn.2 t1 _ h2 (by
      intro b' hb'
      rw [List.mem_filter]
      refine ⟨hin b' (List.mem_cons_of_mem _ hb'), ?_⟩
      simp only [decide_eq_true_eq]
      intro e
      exact hn.1 (e ▸ List.mem_map.2 ⟨b', hb', rfl⟩))
    refine ⟨t2, ?_, ?_⟩
    · rw [List.foldlM_cons, h1]
      exact h3
    · rw [h4, List.filter_filter]
      congr 1
      apply List.filter_congr
      intro y _
      simp only [List.map_cons, List.mem_cons, not_or, Bool.decide_and, ne_eq]
      rw [Bool.and_comm]

/-- `_mp_where` on one part -/
theorem mpWhere_ok (ps : Nat) (hps : 0 < ps) (t : Tbl ν α) (crit : List Bool) (k : MergeTask ν) (l r : List α) (n : Nat)
    (hl : (dGet k.left t).map colIter = some l) (hr : (dGet k.right t).map colIter = some r) (hc : crit.length = n) (hll : l.length = n)
    (hrl : r.length = n) (h1 : k.start ≤ k.end_) :
    mpWhere ps t (paginate ps crit) k =
      .ok (((List.zipWith (fun (m : Bool) (p : α × α) => if m then p.1 else p.2) crit (l.zip r)).take k.end_).drop k.start) := by
  unfold mpWhere
  cases hp : dGet k.left t with
  | none => rw [hp] at hl; cases hl
  | some p =>
    cases hq : dGet k.right t with
    | none => rw [hq] at hr; cases hr
    | some q =>
      rw [hp] at hl
      rw [hq] at hr
      have hl : colIter p = l := by simpa using hl
      have hr : colIter q = r := by simpa using hr
      simp only [getSlice_nat _ _ _ h1, bind, Except.bind, hl, hr]
      rw [colIter_eq (paginate ps crit), paginate_flatten hps]
      rw [npWhere_same _ _ _ (by simp [hc, hll]) (by simp [hc, hrl])]
      simp only
      rw [C02_slice_read_partial _ {} (Or.inl (by decide)), pySlice_full, colIter_eq, paginate_flatten hps]
      rw [List.take_zipWith, List.drop_zipWith, List.zip_eq_zipWith, List.zip_eq_zipWith, List.take_zipWith, List.drop_zipWith]

theorem mergeTasks_mem (ps : Nat) (mk : ν → Nat → ν) (cols lk rk : List ν) (n : Nat) (k : MergeTask ν) (h : k ∈ mergeTasks ps mk cols lk rk n) :
    ∃ x ∈ lk.zip rk, ∃ se ∈ pageSteps ps n, k = ⟨x.1, uniqueName mk x.2 cols, se.1, se.2⟩ := by
  unfold mergeTasks at h
  obtain ⟨x, hx, h⟩ := List.mem_flatMap.1 h
  obtain ⟨se, hse, rfl⟩ := List.mem_map.1 h
  exact ⟨x, hx, se, hse, rfl⟩

/-- step 5 of the join for kinds `outer` and `left` -/
theorem mergeColumns_view (ps : Nat) (hps : 0 < ps) (mk : ν → Nat → ν) (kind : JoinKind) (hkind : kind = .outer ∨ kind = .left)
    (cols lk rk : List ν) (hlk : lk.Nodup) (mapping : List (Int × Int)) (t : Tbl ν α) (ks : List ν) (hks : ks.Nodup) (g : ν → List α)
    (h : tview t = ks.map fun y => (y, g y)) (hg : ∀ y ∈ ks, (g y).length = mapping.length) (hl : ∀ a ∈ lk, a ∈ ks)
    (hr : ∀ b ∈ rk, uniqueName mk b cols ∈ ks) (hlen : lk.length = rk.length) :
    ∃ t', mergeColumns ps mk kind cols lk rk mapping t = .ok t' ∧
      tview t' = ks.map fun y => (y, match dGet y (lk.zip rk) with
        | none => g y
        | some b => List.zipWith (fun (m : Bool) (p : α × α) => if m then p.1 else p.2) (mergeCrit kind mapping) ((g y).zip (g (uniqueName mk b cols)))) := by
  have hzip : ((lk.zip rk).map (·.1)).Nodup := by rw [List.map_fst_zip (by omega)]; exact hlk
  have hcol : ∀ y ∈ ks, (dGet y t).map colIter = some (g y) := by
    intro y hy
    rw [← dGet_tview, h, dGet_map, if_pos hy]
  have hcrit : (mergeCrit kind mapping).length = mapping.length := by simp [mergeCrit]
  have hsteps : ∀ se ∈ pageSteps ps mapping.length, se.1 ≤ se.2 ∧ se.2 ≤ mapping.length := by
    intro se hse
    have := (pageStepsLoop_spec ps mapping.length hps (mapping.length / ps + 1) 0 (by omega) (div_succ_mul _ _ hps)).2.1 se hse
    exact ⟨this.1, this.2.1⟩
  generalize hLdef : (fun y => match dGet y (lk.zip rk) with
        | none => g y
        | some b => List.zipWith (fun (m : Bool) (p : α × α) => if m then p.1 else p.2) (mergeCrit kind mapping)
          ((g y).zip (g (uniqueName mk b cols)))) = L
  have hL : ∀ x ∈ lk.zip rk, L x.1 = List.zipWith (fun (m : Bool) (p : α × α) => if m then p.1 else p.2) (mergeCrit kind mapping)
          ((g x.1).zip (g (uniqueName mk x.2 cols))) := by
    intro x hx
    rw [← hLdef]
    simp only
    rw [dGet_of_mem _ hzip x hx]
  have hLlen : ∀ x ∈ lk.zip rk, (L x.1).length = mapping.length := by
    intro x hx
    rw [hL x hx, List.length_zipWith, List.length_zip, hcrit, hg _ (hl _ (List.of_mem_zip hx).1), hg _ (hr _ (List.of_mem_zip hx).2)]
    omega
  have hres : (mergeTasks ps mk cols lk rk mapping.length).mapM (mpWhere ps t (paginate ps (mergeCrit kind mapping))) =
      .ok ((mergeTasks ps mk cols lk rk mapping.length).map fun k => ((L k.left).take k.end_).drop k.start) := by
    apply mapM_ok
    intro k hk
    obtain ⟨x, hx, se, hse, rfl⟩ := mergeTasks_mem _ _ _ _ _ _ _ hk
    have h1 := hl _ (List.of_mem_zip hx).1
    have h2 := hr _ (List.of_mem_zip hx).2
    rw [mpWhere_ok ps hps t (mergeCrit kind mapping) _ (g x.1) (g (uniqueName mk x.2 cols)) mapping.length (hcol _ h1) (hcol _ h2) hcrit
      (hg _ h1) (hg _ h2) (hsteps se hse).1]
    simp only
    rw [hL x hx]
  unfold mergeColumns
  rw [if_pos hkind]
  simp only [hres, bind, Except.bind]
  generalize htasks : mergeTasks ps mk cols lk rk mapping.length = tasks at *
  have hz : tasks.zip (tasks.map fun k => ((L k.left).take k.end_).drop k.start) =
      tasks.map fun k => (k, ((L k.left).take k.end_).drop k.start) := by
    rw [List.zip_map_right, List.zip_eq_zipWith, List.zipWith_self, List.map_map]
    rfl
  rw [hz]
  obtain ⟨t', g', h1, h2, h3⟩ := mergeWrite_fold ps hps mapping.length ks hks L
    (tasks.map fun k => (k, ((L k.left).take k.end_).drop k.start)) (by
      intro w hw
      obtain ⟨k, hk, rfl⟩ := List.mem_map.1 hw
      obtain ⟨x, hx, se, hse, rfl⟩ := mergeTasks_mem ps mk cols lk rk mapping.length k (by rw [htasks]; exact hk)
      exact ⟨hl _ (List.of_mem_zip hx).1, (hsteps se hse).1, (hsteps se hse).2, hLlen x hx, rfl⟩) t g h hg
  refine ⟨t', h1, ?_⟩
  rw [h2]
  apply List.map_congr_left
  intro y hy
  congr 1
  have hLy : (match dGet y (lk.zip rk) with
        | none => g y
        | some b => List.zipWith (fun (m : Bool) (p : α × α) => if m then p.1 else p.2) (mergeCrit kind mapping)
          ((g y).zip (g (uniqueName mk b cols)))) = L y := by rw [← hLdef]
  rw [hLy]
  apply List.ext_getElem?
  intro i
  cases hd : dGet y (lk.zip rk) with
  | none =>
    rw [((h3 y hy).2 i).2]
    · rw [hd] at hLy
      rw [← hLy]
    · rintro ⟨w, hw, hwy, _⟩
      obtain ⟨k, hk, rfl⟩ := List.mem_map.1 hw
      obtain ⟨x, hx, se, hse, rfl⟩ := mergeTasks_mem ps mk cols lk rk mapping.length k (by rw [htasks]; exact hk)
      simp only at hwy
      have := dGet_of_mem _ hzip x hx
      rw [hwy, hd] at this
      cases this
  | some b =>
    have hmem := dGet_mem _ _ _ hd
    by_cases hi : i < mapping.length
    · rw [((h3 y hy).2 i).1]
      have hcov := (pageStepsLoop_spec ps mapping.length hps (mapping.length / ps + 1) 0 (by omega) (div_succ_mul _ _ hps)).1
      have : i ∈ List.range' 0 (mapping.length - 0) := by rw [List.mem_range']; exact ⟨i, by omega, by omega⟩
      rw [← hcov] at this
      obtain ⟨se, hse, hin⟩ := List.mem_flatMap.1 this
      rw [List.mem_range'] at hin
      obtain ⟨j, hj, e⟩ := hin
      refine ⟨(⟨y, uniqueName mk b cols, se.1, se.2⟩, _), List.mem_map.2 ⟨⟨y, uniqueName mk b cols, se.1, se.2⟩, ?_, rfl⟩, rfl, ?_, ?_⟩
      · rw [← htasks]
        exact List.mem_flatMap.2 ⟨_, hmem, List.mem_map.2 ⟨se, hse, rfl⟩⟩
      · simp only; omega
      · simp only; omega
    · rw [List.getElem?_eq_none (by rw [(h3 y hy).1]; omega), List.getElem?_eq_none (by rw [hLlen _ hmem]; omega)]

/-! ## the row pairs of a join -/

/-- left row `i` and right row `j` have equal keys -/
def Partner (nul : α) (t o : Tbl ν α) (lk rk : List ν) (i j : Nat) : Prop := (lk.map fun a => cell nul t a i) = rk.map fun a => cell nul o a j

/-- is `(left row, right row)` a row of the join of a table of `n` rows with one of `m` rows (`none`: no row) -/
def JoinRow (kind : JoinKind) (nul : α) (t o : Tbl ν α) (n m : Nat) (lk rk : List ν) : Option Nat → Option Nat → Prop
  | some i, some j => i < n ∧ j < m ∧ (kind = .cross ∨ Partner nul t o lk rk i j)
  | some i, none => (kind = .left ∨ kind = .outer) ∧ i < n ∧ ∀ j < m, ¬ Partner nul t o lk rk i j
  | none, some j => kind = .outer ∧ j < m ∧ ∀ i < n, ¬ Partner nul t o lk rk i j
  | none, none => False

theorem keyRows_notMem (nul : α) (t : Tbl ν α) (args : List ν) (n : Nat) (k : List α) :
    k ∉ keyRows nul t args n ↔ ∀ j, j < n → k ≠ args.map fun a => cell nul t a j := by
  constructor
  · intro hk j hj e
    exact hk (List.mem_of_getElem? ((keyRows_get nul t args n j k).2 ⟨hj, e⟩))
  · intro hk hin
    obtain ⟨j, hj, e⟩ := List.getElem_of_mem hin
    have := (keyRows_get nul t args n j k).1 (by rw [List.getElem?_eq_getElem hj, e])
    exact hk j this.1 this.2

theorem mem_crossMapping (n m : Nat) (hn : 0 < n) (hm : 0 < m) :
    ∃ M, crossMapping n m = .ok M ∧ M.Nodup ∧ ∀ i j : Int, (i, j) ∈ M ↔ ∃ a b : Nat, i = a ∧ j = b ∧ a < n ∧ b < m := by
  unfold crossMapping
  dsimp only
  refine ⟨_, if_neg ?_, ?_, ?_⟩
  · intro e
    have : (((0 : Nat) : Int), ((0 : Nat) : Int)) ∈ (List.range n).flatMap fun i => (List.range m).map fun j => (((i : Nat) : Int), ((j : Nat) : Int)) :=
      List.mem_flatMap.2 ⟨0, List.mem_range.2 hn, List.mem_map.2 ⟨0, List.mem_range.2 hm, rfl⟩⟩
    rw [e] at this
    cases this
  · rw [List.nodup_flatMap]
    constructor
    · intro i _
      exact List.nodup_range.map (fun a b e => by injection e with _ e; omega)
    · refine List.nodup_range.imp ?_
      intro a b hab x hx hy
      obtain ⟨j, _, rfl⟩ := List.mem_map.1 hx
      obtain ⟨j', _, e⟩ := List.mem_map.1 hy
      injection e with e _
      omega
  · intro i j
    rw [List.mem_flatMap]
    constructor
    · rintro ⟨a, ha, h⟩
      obtain ⟨b, hb, e⟩ := List.mem_map.1 h
      injection e with e1 e2
      exact ⟨a, b, e1.symm, e2.symm, List.mem_range.1 ha, List.mem_range.1 hb⟩
    · rintro ⟨a, b, rfl, rfl, ha, hb⟩
      exact ⟨a, List.mem_range.2 ha, List.mem_map.2 ⟨b, List.mem_range.2 hb, rfl⟩⟩

variable [DecidableEq α]

/-- the mapping of every join kind lists exactly the rows of the join, each once -/
theorem joinMapping_rows (ord : List (List α) → List (List α)) (hord : ∀ l, (ord l).Perm l) (kind : JoinKind) (nul : α) (t o : Tbl ν α) (n m : Nat)
    (ht : Rect t n) (ho : Rect o m) (lk rk lc rc : List ν) (h : JoinOk t o lk rk lc rc) (hcross : kind = .cross → 0 < n ∧ 0 < m) :
    ∃ M, joinMapping ord kind t o lk rk = .ok M ∧ M.Nodup ∧
      (∀ p ∈ M, (p.1 = -1 ∨ (0 ≤ p.1 ∧ p.1 < n)) ∧ (p.2 = -1 ∨ (0 ≤ p.2 ∧ p.2 < m))) ∧
      (∀ r s, (r, s) ∈ M.map (fun p => (dec p.1, dec p.2)) ↔ JoinRow kind nul t o n m lk rk r s) := by
  have hL := tblIndex_idxOf nul t n ht lk h.key h.lkIn
  have hR := tblIndex_idxOf nul o m ho rk h.rkey h.rkIn
  -- from a description of the pairs of row numbers to the rows of the join
  have core : ∀ M : List (Int × Int), (∀ i j, (i, j) ∈ M ↔
        (∃ a b : Nat, i = a ∧ j = b ∧ JoinRow kind nul t o n m lk rk (some a) (some b)) ∨
        (∃ a : Nat, i = a ∧ j = -1 ∧ JoinRow kind nul t o n m lk rk (some a) none) ∨
        (∃ b : Nat, i = -1 ∧ j = b ∧ JoinRow kind nul t o n m lk rk none (some b))) →
      (∀ p ∈ M, (p.1 = -1 ∨ (0 ≤ p.1 ∧ p.1 < n)) ∧ (p.2 = -1 ∨ (0 ≤ p.2 ∧ p.2 < m))) ∧
      (∀ r s, (r, s) ∈ M.map (fun p => (dec p.1, dec p.2)) ↔ JoinRow kind nul t o n m lk rk r s) := by
    intro M hM
    have d1 : ∀ a : Nat, dec (a : Int) = some a := fun a => (dec_some _ _ (by omega)).2 rfl
    have d2 : dec (-1) = none := (dec_none _).2 rfl
    constructor
    · rintro ⟨i, j⟩ hp
      rcases (hM i j).1 hp with ⟨a, b, rfl, rfl, h1, h2, _⟩ | ⟨a, rfl, rfl, _, h1, _⟩ | ⟨b, rfl, rfl, _, h1, _⟩
      · simp only; omega
      · exact ⟨Or.inr ⟨by simp only; omega, by simp only; omega⟩, Or.inl rfl⟩
      · exact ⟨Or.inl rfl, Or.inr ⟨by simp only; omega, by simp only; omega⟩⟩
    · intro r s
      rw [List.mem_map]
      constructor
      · rintro ⟨⟨i, j⟩, hp, e⟩
        injection e with e1 e2
        rcases (hM i j).1 hp with ⟨a, b, rfl, rfl, hj⟩ | ⟨a, rfl, rfl, hj⟩ | ⟨b, rfl, rfl, hj⟩
        · rw [← e1, ← e2]; simp only [d1]; exact hj
        · rw [← e1, ← e2]; simp only [d1, d2]; exact hj
        · rw [← e1, ← e2]; simp only [d1, d2]; exact hj
      · intro hj
        match r, s, hj with
        | some a, some b, hj => exact ⟨((a : Int), (b : Int)), (hM _ _).2 (Or.inl ⟨a, b, rfl, rfl, hj⟩), by simp only [d1]⟩
        | some a, none, hj => exact ⟨((a : Int), -1), (hM _ _).2 (Or.inr (Or.inl ⟨a, rfl, rfl, hj⟩)), by simp only [d1, d2]⟩
        | none, some b, hj => exact ⟨(-1, (b : Int)), (hM _ _).2 (Or.inr (Or.inr ⟨b, rfl, rfl, hj⟩)), by simp only [d1, d2]⟩
  cases kind with
  | cross =>
    have hne : ∀ (t : Tbl ν α) (l : List ν), l ≠ [] → (∀ a ∈ l, a ∈ t.map (·.1)) → t ≠ [] := by
      intro t l hl hs e
      obtain ⟨a, ha⟩ := List.exists_mem_of_ne_nil l hl
      have := hs a ha
      rw [e] at this
      cases this
    obtain ⟨M, h1, h2, h3⟩ := mem_crossMapping n m (hcross rfl).1 (hcross rfl).2
    refine ⟨M, ?_, h2, core M ?_⟩
    · unfold joinMapping
      rw [tblLen_rect t n ht (hne t lc h.lcne h.lcIn), tblLen_rect o m ho (hne o rc h.rcne h.rcIn)]
      exact h1
    · intro i j
      rw [h3]
      simp [JoinRow]
  | inner =>
    refine ⟨innerMapping (idxOf (keyRows nul t lk n)) (idxOf (keyRows nul o rk m)), ?_, nodup_inner _ _, core _ ?_⟩
    · unfold joinMapping
      rw [hL, hR]
      rfl
    · intro i j
      rw [mem_inner]
      simp only [keyRows_get, JoinRow, Partner]
      constructor
      · rintro ⟨a, b, k, rfl, rfl, ⟨h1, h2⟩, h3, h4⟩
        exact Or.inl ⟨a, b, rfl, rfl, h1, h3, Or.inr (h2.symm.trans h4)⟩
      · rintro (⟨a, b, rfl, rfl, h1, h2, h3⟩ | ⟨a, _, _, h1, _⟩ | ⟨a, _, _, h1, _⟩)
        · rcases h3 with h3 | h3
          · cases h3
          · exact ⟨a, b, _, rfl, rfl, ⟨h1, rfl⟩, h2, h3⟩
        · simp at h1
        · cases h1
  | left =>
    refine ⟨leftMapping (idxOf (keyRows nul t lk n)) (idxOf (keyRows nul o rk m)), ?_, nodup_left _ _, core _ ?_⟩
    · unfold joinMapping
      rw [hL, hR]
      rfl
    · intro i j
      rw [mem_left]
      simp only [keyRows_get, keyRows_notMem, JoinRow, Partner]
      constructor
      · rintro ⟨a, k, rfl, ⟨h1, rfl⟩, ⟨b, rfl, h3, h4⟩ | ⟨rfl, h3⟩⟩
        · exact Or.inl ⟨a, b, rfl, rfl, h1, h3, Or.inr h4⟩
        · exact Or.inr (Or.inl ⟨a, rfl, rfl, Or.inl trivial, h1, h3⟩)
      · rintro (⟨a, b, rfl, rfl, h1, h2, h3⟩ | ⟨a, rfl, rfl, _, h1, h2⟩ | ⟨a, _, _, h1, _⟩)
        · rcases h3 with h3 | h3
          · cases h3
          · exact ⟨a, _, rfl, ⟨h1, rfl⟩, Or.inl ⟨b, rfl, h2, h3⟩⟩
        · exact ⟨a, _, rfl, ⟨h1, rfl⟩, Or.inr ⟨rfl, h2⟩⟩
        · cases h1
  | outer =>
    have hmem : ∀ i j, (i, j) ∈ leftMapping (idxOf (keyRows nul t lk n)) (idxOf (keyRows nul o rk m)) → 0 ≤ i := by
      intro i j hp
      rw [mem_left] at hp
      obtain ⟨a, _, rfl, _⟩ := hp
      omega
    refine ⟨outerMapping ord (idxOf (keyRows nul t lk n)) (idxOf (keyRows nul o rk m)), ?_, ?_, core _ ?_⟩
    · unfold joinMapping
      rw [hL, hR]
      rfl
    · rw [outer_eq, List.nodup_append]
      refine ⟨nodup_left _ _, (nodup_outerRest ord hord _ _).map (fun a b e => by injection e), ?_⟩
      rintro ⟨i, j⟩ hp q hq e
      obtain ⟨j', _, rfl⟩ := List.mem_map.1 hq
      have := hmem i j hp
      injection e with e1 _
      omega
    · intro i j
      rw [outer_eq, List.mem_append, mem_left]
      have hrest : (i, j) ∈ (outerRest ord (keyRows nul t lk n) (keyRows nul o rk m)).map (fun j => ((-1 : Int), j)) ↔
          i = -1 ∧ j ∈ outerRest ord (keyRows nul t lk n) (keyRows nul o rk m) := by
        rw [List.mem_map]
        constructor
        · rintro ⟨x, hx, e⟩
          injection e with e1 e2
          exact ⟨e1.symm, e2 ▸ hx⟩
        · rintro ⟨rfl, hx⟩
          exact ⟨j, hx, rfl⟩
      rw [hrest, mem_outerRest ord hord]
      simp only [keyRows_get, keyRows_notMem, JoinRow, Partner]
      constructor
      · rintro (⟨a, k, rfl, ⟨h1, rfl⟩, ⟨b, rfl, h3, h4⟩ | ⟨rfl, h3⟩⟩ | ⟨rfl, b, k, rfl, ⟨h1, rfl⟩, h2⟩)
        · exact Or.inl ⟨a, b, rfl, rfl, h1, h3, Or.inr h4⟩
        · exact Or.inr (Or.inl ⟨a, rfl, rfl, Or.inr trivial, h1, h3⟩)
        · exact Or.inr (Or.inr ⟨b, rfl, rfl, trivial, h1, fun i hi e => h2 i hi e.symm⟩)
      · rintro (⟨a, b, rfl, rfl, h1, h2, h3⟩ | ⟨a, rfl, rfl, _, h1, h2⟩ | ⟨b, rfl, rfl, _, h1, h2⟩)
        · rcases h3 with h3 | h3
          · cases h3
          · exact Or.inl ⟨a, _, rfl, ⟨h1, rfl⟩, Or.inl ⟨b, rfl, h2, h3⟩⟩
        · exact Or.inl ⟨a, _, rfl, ⟨h1, rfl⟩, Or.inr ⟨rfl, h2⟩⟩
        · exact Or.inr ⟨rfl, b, _, rfl, ⟨h1, rfl⟩, fun i hi e => h2 i hi e.symm⟩

/-! ## C82 -/

/-- what a join with merged keys should look like for the row pairs `pairs`: the left columns, where a key column takes the right key's value
in rows without left row; then the right columns other than the right keys. -/
def mergedView (mk : ν → Nat → ν) (nul : α) (t o : Tbl ν α) (lk rk lc rc : List ν) (pairs : List (Option Nat × Option Nat)) : List (ν × List α) :=
  lc.map (fun x => (x, pairs.map fun p => match p.1 with
    | some i => cell nul t x i
    | none => match dGet x (lk.zip rk) with
      | some b => optCell nul o b p.2
      | none => nul)) ++
  ((rc.zip (rightNames mk lc rc)).filter fun x => x.1 ∉ rk).map fun x => (x.2, pairs.map fun p => optCell nul o x.1 p.2)

/-- C82 (partial): a join of any kind with `merge_keys=True` has the rows of the plain join; the left key columns hold the key of the row (of
the left row if there is one, else of the right row), and the right key columns are gone; all other columns are those of the plain join.
For every page size, layout, number of keys.  Hypotheses beyond those of the plain join: the keys are among the selected columns, no name is
repeated, and every right key got the name `unique_name(key, T.columns)` in the join (`hname`; missing from the English claim, see
`C82_wrong_column_fails`, `C82_subset_fails`). -/
theorem C82_merge_partial (ps : Nat) (hps : 0 < ps) (mk : ν → Nat → ν) (hmk : ∀ d a b, mk d a = mk d b → a = b)
    (ord : List (List α) → List (List α)) (hord : ∀ l, (ord l).Perm l) (kind : JoinKind) (nul : α) (t o : Tbl ν α) (n m : Nat)
    (ht : Rect t n) (ho : Rect o m) (lk rk lc rc : List ν) (h : JoinOk t o lk rk lc rc) (hcross : kind = .cross → 0 < n ∧ 0 < m)
    (hpgl : ∀ c ∈ t, ∀ q ∈ c.2, q ≠ []) (hpg : ∀ c ∈ o, ∀ q ∈ c.2, q ≠ [])
    (hlk : ∀ a ∈ lk, a ∈ lc) (hlkn : lk.Nodup) (hrkn : rk.Nodup) (hrc : rc.Nodup)
    (hname : ∀ b ∈ rk, (b, uniqueName mk b (t.map (·.1))) ∈ rc.zip (rightNames mk lc rc)) :
    ∃ pairs : List (Option Nat × Option Nat), pairs.Nodup ∧ (∀ r s, (r, s) ∈ pairs ↔ JoinRow kind nul t o n m lk rk r s) ∧
      ∃ t1 t2, tblJoin ps mk ord nul kind t o lk rk lc rc = .ok t1 ∧ tview t1 = joinedView mk nul t o lc rc pairs ∧
        tblJoinMerged ps mk ord nul kind t o lk rk lc rc = .ok t2 ∧ tview t2 = mergedView mk nul t o lk rk lc rc pairs := by
  obtain ⟨M, hM, hMn, hval, hrows⟩ := joinMapping_rows ord hord kind nul t o n m ht ho lk rk lc rc h hcross
  obtain ⟨hpn, t1, hj, hv⟩ := leftOuter_core ps hps mk hmk nul t o n m ht ho lc rc h.lcnd h.lcIn h.rcIn M hMn hval (fun _ => hpgl) (fun _ => hpg)
  refine ⟨M.map fun p => (dec p.1, dec p.2), hpn, hrows, ?_⟩
  have hlenN := rightNames_length mk lc rc
  have hksn := rightNames_nodup mk hmk lc rc h.lcnd
  have hz1 : (rc.zip (rightNames mk lc rc)).map (·.1) = rc := List.map_fst_zip (by omega)
  have hz2 : (rc.zip (rightNames mk lc rc)).map (·.2) = rightNames mk lc rc := List.map_snd_zip (by omega)
  have hrn : (rightNames mk lc rc).Nodup := (List.nodup_append.1 hksn).2.1
  -- columns of the joined table by name
  have hfst : (joinedView mk nul t o lc rc (M.map fun p => (dec p.1, dec p.2))).map (·.1) = lc ++ rightNames mk lc rc := by
    unfold joinedView
    rw [List.map_append, List.map_map, List.map_map]
    congr 1
    exact List.map_id _
  have hdup := dict_repr ([] : List α) (joinedView mk nul t o lc rc (M.map fun p => (dec p.1, dec p.2))) (by rw [hfst]; exact hksn)
  rw [hfst] at hdup
  generalize hg : (fun y => (dGet y (joinedView mk nul t o lc rc (M.map fun p => (dec p.1, dec p.2)))).getD []) = g at hdup
  have hdup : joinedView mk nul t o lc rc (M.map fun p => (dec p.1, dec p.2)) = (lc ++ rightNames mk lc rc).map fun y => (y, g y) := by
    rw [← hg]
    exact hdup
  have hgmem : ∀ c ∈ joinedView mk nul t o lc rc (M.map fun p => (dec p.1, dec p.2)), g c.1 = c.2 := by
    intro c hc
    rw [← hg]
    simp only
    rw [dGet_of_mem _ (by rw [hfst]; exact hksn) c hc]
    rfl
  have hgl : ∀ x ∈ lc, g x = (M.map fun p => (dec p.1, dec p.2)).map fun p => optCell nul t x p.1 := fun x hx =>
    hgmem (x, _) (List.mem_append_left _ (List.mem_map.2 ⟨x, hx, rfl⟩))
  have hgr : ∀ x ∈ rc.zip (rightNames mk lc rc), g x.2 = (M.map fun p => (dec p.1, dec p.2)).map fun p => optCell nul o x.1 p.2 := fun x hx =>
    hgmem (x.2, _) (List.mem_append_right _ (List.mem_map.2 ⟨x, hx, rfl⟩))
  have hglen : ∀ y ∈ lc ++ rightNames mk lc rc, (g y).length = M.length := by
    intro y hy
    rcases List.mem_append.1 hy with hy | hy
    · rw [hgl y hy]; simp
    · rw [← hz2] at hy
      obtain ⟨x, hx, rfl⟩ := List.mem_map.1 hy
      rw [hgr x hx]; simp
  have hview : tview t1 = (lc ++ rightNames mk lc rc).map fun y => (y, g y) := by rw [hv]; exact hdup
  have hrin : ∀ b ∈ rk, uniqueName mk b (t.map (·.1)) ∈ rightNames mk lc rc := fun b hb => (List.of_mem_zip (hname b hb)).2
  have hrin' : ∀ b ∈ rk, uniqueName mk b (t.map (·.1)) ∈ lc ++ rightNames mk lc rc := fun b hb => List.mem_append_right _ (hrin b hb)
  -- the merged table before the deletions
  have hmerged : ∃ t', mergeColumns ps mk kind (t.map (·.1)) lk rk M t1 = .ok t' ∧
      tview t' = (lc ++ rightNames mk lc rc).map fun y => (y, if y ∈ lc then (M.map fun p => (dec p.1, dec p.2)).map fun p => (match p.1 with
        | some i => cell nul t y i
        | none => match dGet y (lk.zip rk) with
          | some b => optCell nul o b p.2
          | none => nul) else g y) := by
    have hnotlk : ∀ y, y ∉ lc → dGet y (lk.zip rk) = none := by
      intro y hy
      cases e : dGet y (lk.zip rk) with
      | none => rfl
      | some b => exact absurd (hlk _ (List.of_mem_zip (dGet_mem _ _ _ e)).1) hy
    by_cases hkind : kind = .outer ∨ kind = .left
    · obtain ⟨t', e1, e2⟩ := mergeColumns_view ps hps mk kind hkind (t.map (·.1)) lk rk hlkn M t1 _ hksn g hview hglen
        (fun a ha => List.mem_append_left _ (hlk a ha)) hrin' h.len
      refine ⟨t', e1, ?_⟩
      rw [e2]
      apply List.map_congr_left
      intro y hy
      congr 1
      by_cases hyl : y ∈ lc
      · rw [if_pos hyl]
        cases hd : dGet y (lk.zip rk) with
        | none =>
          simp only
          rw [hgl y hyl]
          apply List.map_congr_left
          intro p _
          cases p.1 <;> rfl
        | some b =>
          simp only
          have hmemz := dGet_mem _ _ _ hd
          rw [hgl y hyl, hgr _ (hname b (List.of_mem_zip hmemz).2)]
          unfold mergeCrit
          simp only [List.zip_map', List.map_map, List.zipWith_map_left, List.zipWith_map_right, List.zipWith_self]
          apply List.map_congr_left
          rintro ⟨i, j⟩ hp
          simp only [Function.comp]
          have hrow := (hrows (dec i) (dec j)).1 (List.mem_map.2 ⟨(i, j), hp, rfl⟩)
          rcases hkind with hk | hk
          · subst hk
            simp only [if_true]
            by_cases hi : i = -1
            · rw [(dec_none i).2 hi]; simp [hi]
            · have hv := (hval _ hp).1
              have : dec i = some i.toNat := (dec_some _ _ (by simp only at hv; omega)).2 (by simp only at hv; omega)
              rw [this]; simp [hi, optCell]
          · subst hk
            simp only [show ¬ (JoinKind.left = JoinKind.outer) by decide, if_false]
            by_cases hj : j = -1
            · rw [if_pos (by simpa using hj)]
              rw [(dec_none j).2 hj] at hrow
              cases hi : dec i with
              | none => rw [hi] at hrow; exact hrow.elim
              | some a => rfl
            · rw [if_neg (by simpa using hj)]
              have hv := (hval _ hp).2
              have hjd : dec j = some j.toNat := (dec_some _ _ (by simp only at hv; omega)).2 (by simp only at hv; omega)
              rw [hjd] at hrow ⊢
              cases hi : dec i with
              | none => rfl
              | some a =>
                rw [hi] at hrow
                obtain ⟨_, _, hx⟩ := hrow
                rcases hx with hx | hx
                · cases hx
                · -- equal keys: the right key is the left key
                  unfold Partner at hx
                  obtain ⟨q, hq, e⟩ := List.getElem_of_mem hmemz
                  have hq1 : q < lk.length := by simp at hq; omega
                  have hq2 : q < rk.length := by simp at hq; omega
                  rw [List.getElem_zip] at e
                  injection e with ea eb
                  have hk := congrArg (fun l => l[q]?) hx
                  simp only [List.getElem?_map, List.getElem?_eq_getElem hq1, List.getElem?_eq_getElem hq2, Option.map_some, Option.some.injEq] at hk
                  rw [ea, eb] at hk
                  simp only [optCell]
                  exact hk.symm
      · rw [if_neg hyl, hnotlk y hyl]
    · refine ⟨t1, ?_, ?_⟩
      · unfold mergeColumns
        rw [if_neg hkind]
      · rw [hview]
        apply List.map_congr_left
        intro y hy
        congr 1
        by_cases hyl : y ∈ lc
        · rw [if_pos hyl, hgl y hyl]
          apply List.map_congr_left
          rintro ⟨r, s⟩ hp
          have hrow := (hrows r s).1 hp
          cases r with
          | some i => rfl
          | none =>
            cases s with
            | none => exact hrow.elim
            | some j => exact absurd (Or.inl hrow.1) hkind
        · rw [if_neg hyl]
  obtain ⟨t', hm1, hm2⟩ := hmerged
  have hnn : (rk.map fun b => uniqueName mk b (t.map (·.1))).Nodup := by
    refine hrkn.map_on ?_
    intro a ha b hb e
    have := List.inj_on_of_nodup_map (f := Prod.snd) (l := rc.zip (rightNames mk lc rc)) (by rw [hz2]; exact hrn) (hname a ha) (hname b hb) e
    injection this
  obtain ⟨t2, hd1, hd2⟩ := mergeDelete_view mk (t.map (·.1)) rk hnn t' _ _ hm2 hrin'
  refine ⟨t1, t2, ?_, hv, ?_, ?_⟩
  · unfold tblJoin
    rw [joinCheck_ok h]
    simp only [bind, Except.bind, hM]
    exact hj
  · unfold tblJoinMerged
    rw [joinCheck_ok h]
    simp only [bind, Except.bind, hM, hj, hm1]
    exact hd1
  · rw [hd2, List.filter_append, List.map_append]
    unfold mergedView
    congr 1
    · rw [List.filter_eq_self.2]
      · apply List.map_congr_left
        intro y hy
        rw [if_pos hy]
      · intro y hy
        simp only [decide_eq_true_eq]
        intro hin
        obtain ⟨b, hb, rfl⟩ := List.mem_map.1 hin
        exact (List.nodup_append.1 hksn).2.2 _ hy _ (hrin b hb) rfl
    · conv => lhs; rw [← hz2]
      rw [List.filter_map, List.map_map]
      have hfil : (rc.zip (rightNames mk lc rc)).filter ((fun y => decide (y ∉ rk.map fun b => uniqueName mk b (t.map (·.1)))) ∘ Prod.snd) =
          (rc.zip (rightNames mk lc rc)).filter fun x => decide (x.1 ∉ rk) := by
        apply List.filter_congr
        intro x hx
        simp only [Function.comp, decide_eq_decide]
        rw [not_iff_not, List.mem_map]
        constructor
        · rintro ⟨b, hb, e⟩
          have := List.inj_on_of_nodup_map (f := Prod.snd) (l := rc.zip (rightNames mk lc rc)) (by rw [hz2]; exact hrn) (hname b hb) hx e
          rw [← this]
          exact hb
        · intro hb
          refine ⟨x.1, hb, ?_⟩
          have := List.inj_on_of_nodup_map (f := Prod.fst) (l := rc.zip (rightNames mk lc rc)) (by rw [hz1]; exact hrc) (hname x.1 hb) hx rfl
          exact congrArg Prod.snd this
      have hfil' : (rc.zip (rightNames mk lc rc)).filter ((fun y => decide (y ∉ rk.map fun b => uniqueName mk b (t.map (·.1)))) ∘ fun x => x.2) =
          (rc.zip (rightNames mk lc rc)).filter fun x => decide (x.1 ∉ rk) := hfil
      rw [hfil']
      apply List.map_congr_left
      intro x hx
      have hx := List.mem_of_mem_filter hx
      simp only [Function.comp]
      rw [if_neg, hgr x hx]
      intro hy
      exact (List.nodup_append.1 hksn).2.2 _ hy _ (List.of_mem_zip hx).2 rfl

omit [DecidableEq α] in
theorem rightNames_disjoint (mk : ν → Nat → ν) (hv rc : List ν) (hn : rc.Nodup) (hd : ∀ b ∈ rc, b ∉ hv) : rightNames mk hv rc = rc := by
  induction rc generalizing hv with
  | nil => rfl
  | cons x rc ih =>
    rw [List.nodup_cons] at hn
    have hx : uniqueName mk x hv = x := by
      unfold uniqueName
      rw [if_neg (hd x List.mem_cons_self)]
    simp only [rightNames, hx]
    rw [ih (hv ++ [x]) hn.2]
    intro b hb hin
    rcases List.mem_append.1 hin with hin | hin
    · exact hd b (List.mem_cons_of_mem _ hb) hin
    · rw [List.mem_singleton] at hin
      exact hn.1 (hin ▸ hb)

/-- C82 (partial): no name condition is left if no selected right column has the name of a column of the left table: the join with merged keys
then succeeds for every selection of columns that contains the keys, and shows the merged table. -/
theorem C82_disjoint_partial (ps : Nat) (hps : 0 < ps) (mk : ν → Nat → ν) (hmk : ∀ d a b, mk d a = mk d b → a = b)
    (ord : List (List α) → List (List α)) (hord : ∀ l, (ord l).Perm l) (kind : JoinKind) (nul : α) (t o : Tbl ν α) (n m : Nat)
    (ht : Rect t n) (ho : Rect o m) (lk rk lc rc : List ν) (h : JoinOk t o lk rk lc rc) (hcross : kind = .cross → 0 < n ∧ 0 < m)
    (hpgl : ∀ c ∈ t, ∀ q ∈ c.2, q ≠ []) (hpg : ∀ c ∈ o, ∀ q ∈ c.2, q ≠ [])
    (hlk : ∀ a ∈ lk, a ∈ lc) (hrk : ∀ b ∈ rk, b ∈ rc) (hlkn : lk.Nodup) (hrkn : rk.Nodup) (hrc : rc.Nodup)
    (hdis : ∀ b ∈ rc, b ∉ t.map (·.1)) :
    ∃ pairs : List (Option Nat × Option Nat), pairs.Nodup ∧ (∀ r s, (r, s) ∈ pairs ↔ JoinRow kind nul t o n m lk rk r s) ∧
      ∃ t2, tblJoinMerged ps mk ord nul kind t o lk rk lc rc = .ok t2 ∧ tview t2 = mergedView mk nul t o lk rk lc rc pairs := by
  have hr := rightNames_disjoint mk lc rc hrc (fun b hb hin => hdis b hb (h.lcIn b hin))
  obtain ⟨pairs, h1, h2, _, t2, _, _, h3, h4⟩ := C82_merge_partial ps hps mk hmk ord hord kind nul t o n m ht ho lk rk lc rc h hcross hpgl hpg hlk hlkn hrkn hrc (by
    intro b hb
    rw [hr]
    have : uniqueName mk b (t.map (·.1)) = b := by
      unfold uniqueName
      rw [if_neg (hdis b (hrk b hb))]
    rw [this, List.zip_eq_zipWith, List.zipWith_self]
    exact List.mem_map.2 ⟨b, hrk b hb, rfl⟩)
  exact ⟨pairs, h1, h2, t2, h3, h4⟩

omit [DecidableEq α] in
/-- deleting a column that is not there raises KeyError -/
theorem mergeDelete_missing (mk : ν → Nat → ν) (cols rk : List ν) (t : Tbl ν α) (b : ν) (hb : b ∈ rk) (hm : uniqueName mk b cols ∉ t.map (·.1)) :
    mergeDelete mk cols rk t = .error .key := by
  unfold mergeDelete
  induction rk generalizing t with
  | nil => cases hb
  | cons c rk ih =>
    rw [List.foldlM_cons]
    unfold tblDel
    by_cases hc : uniqueName mk c cols ∈ t.map (·.1)
    · rw [if_pos hc]
      rcases List.mem_cons.1 hb with rfl | hb
      · exact absurd hc hm
      · refine ih _ hb ?_
        intro hin
        obtain ⟨x, hx, e⟩ := List.mem_map.1 hin
        exact hm (e ▸ List.mem_map.2 ⟨x, List.mem_of_mem_filter hx, rfl⟩)
    · rw [if_neg hc]
      rfl

/-- C82: an inner join with merged keys raises KeyError, whatever the data, if some right key is not among the names of the joined table under
the name looked for: in particular if it was not selected, or if the left table has a column of its name that was not selected. -/
theorem C82_missing_raises (ps : Nat) (hps : 0 < ps) (mk : ν → Nat → ν) (hmk : ∀ d a b, mk d a = mk d b → a = b)
    (ord : List (List α) → List (List α)) (nul : α) (t o : Tbl ν α) (n m : Nat)
    (ht : Rect t n) (ho : Rect o m) (lk rk lc rc : List ν) (h : JoinOk t o lk rk lc rc)
    (b : ν) (hb : b ∈ rk) (hm : uniqueName mk b (t.map (·.1)) ∉ lc ++ rightNames mk lc rc) :
    tblJoinMerged ps mk ord nul .inner t o lk rk lc rc = .error .key := by
  obtain ⟨pairs, _, _, t1, h1, h2⟩ := C23_inner ps hps mk hmk ord nul t o n m ht ho lk rk lc rc h
  unfold tblJoin at h1
  unfold tblJoinMerged
  rw [joinCheck_ok h] at *
  simp only [bind, Except.bind] at *
  cases hM : joinMapping ord .inner t o lk rk with
  | error e => rw [hM] at h1; cases h1
  | ok M =>
    rw [hM] at h1
    simp only at h1 ⊢
    rw [h1]
    have : mergeColumns ps mk .inner (t.map (·.1)) lk rk M t1 = .ok t1 := by
      unfold mergeColumns
      rw [if_neg (by decide)]
    simp only [this]
    apply mergeDelete_missing _ _ _ _ b hb
    have hnames : t1.map (·.1) = lc ++ rightNames mk lc rc := by
      have := congrArg (List.map (·.1)) h2
      unfold joinedView at this
      rw [List.map_append, List.map_map, List.map_map] at this
      have e1 : (tview t1).map (·.1) = t1.map (·.1) := by
        unfold tview
        rw [List.map_map]
        rfl
      rw [e1] at this
      rw [this]
      congr 1
      · exact List.map_id _
      · exact List.map_snd_zip (by rw [rightNames_length]; omega)
    rw [hnames]
    exact hm

/-- C82 (full statement): with the keys among the selected columns and no repeated names, a join with `merge_keys=True` shows the merged
table, without a condition on the names of the columns. -/
def C82_statement : Prop :=
  ∀ (ps : Nat), 0 < ps → ∀ (kind : JoinKind) (t o : Tbl String Nat) (n m : Nat), Rect t n → Rect o m → ∀ (lk rk lc rc : List String),
    JoinOk t o lk rk lc rc → (kind = .cross → 0 < n ∧ 0 < m) → (∀ c ∈ t, ∀ q ∈ c.2, q ≠ []) → (∀ c ∈ o, ∀ q ∈ c.2, q ≠ []) →
    (∀ a ∈ lk, a ∈ lc) → (∀ b ∈ rk, b ∈ rc) → lk.Nodup → rk.Nodup → rc.Nodup →
    ∃ pairs : List (Option Nat × Option Nat), pairs.Nodup ∧ (∀ r s, (r, s) ∈ pairs ↔ JoinRow kind 0 t o n m lk rk r s) ∧
      ∃ t2, tblJoinMerged ps suffixed id 0 kind t o lk rk lc rc = .ok t2 ∧ tview t2 = mergedView suffixed 0 t o lk rk lc rc pairs

/-- C82 fails: left table `k`, right table `k_1`, `k`, joined by `k`.  The right key is named `k_2` in the result, but the code merges and
deletes `k_1`: the row without left partner gets 7 as key, not 2, and the data column `k_1` is lost. -/
theorem C82_wrong_column_fails :
    tblJoinMerged 5 suffixed id 0 .outer [("k", [[1]])] [("k_1", [[7]]), ("k", [[2]])] ["k"] ["k"] ["k"] ["k_1", "k"] =
      .ok [("k", [[1, 7]]), ("k_2", [[0, 2]])] := by decide +kernel

/-- C82 fails: the left table's column `k` was not selected; the right key `k` then keeps its name, but the code looks for `k_1` and raises
KeyError. -/
theorem C82_subset_fails :
    tblJoinMerged 5 suffixed id 0 .left [("a", [[1]]), ("k", [[5]])] [("k", [[1]])] ["a"] ["k"] ["a"] ["k"] = .error .key := by decide +kernel

/-- C82 fails: with the selection of the documentation's examples (keys not selected) the call raises KeyError. -/
theorem C82_unselected_fails :
    tblJoinMerged 5 suffixed id 0 .left [("number", [[1]]), ("colour", [[5]])] [("letter", [[8]]), ("color", [[5]])] ["colour"] ["color"] ["number"] ["letter"] =
      .error .key := by decide +kernel

/-- the full statement is false -/
theorem C82_fails : ¬ C82_statement := by
  intro h
  have hok : JoinOk ([("a", [[1]]), ("k", [[5]])] : Tbl String Nat) [("k", [[1]])] ["a"] ["k"] ["a"] ["k"] :=
    ⟨by decide, by decide, by decide, by decide, by decide, by decide, by decide, by decide, by decide⟩
  obtain ⟨_, _, _, t2, h1, _⟩ := h 5 (by omega) .left _ _ 1 1 (by unfold Rect; decide) (by unfold Rect; decide) _ _ _ _ hok (by decide) (by decide) (by decide)
    (by decide) (by decide) (by decide) (by decide) (by decide)
  rw [C82_subset_fails] at h1
  cases h1

/-- the names met in practice satisfy `hname`: the key `k` on both sides, all columns selected -/
example : ∀ b ∈ ["k"], (b, uniqueName suffixed b ["k", "x"]) ∈ ["y", "k"].zip (rightNames suffixed ["k", "x"] ["y", "k"]) := by decide +kernel

/-- the outer join of these tables over several pages -/
example : tblJoinMerged 2 suffixed id 0 .outer [("k", [[1, 2], [3]]), ("x", [[10, 20], [30]])] [("y", [[7, 8, 9]]), ("k", [[2, 5, 2]])]
    ["k"] ["k"] ["k", "x"] ["y", "k"] =
      .ok [("k", [[1, 2], [2, 3], [5]]), ("x", [[10, 20], [20, 30], [0]]), ("y", [[0, 7], [9, 0], [8]])] := by decide +kernel

end

end Tablite
