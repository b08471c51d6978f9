import Verif.Props.GroupByAcc
import Verif.Props.Lookup
import Mathlib.Data.List.GetD
/-!
# C33 group-by: one row per key, aggregates over exactly the rows of the key
-/

namespace Tablite
set_option linter.unusedSectionVars false

section
variable {ν α σ φ : Type} [DecidableEq ν] [DecidableEq α]

/-! ## the specification -/

/-- the key of row `i` -/
def keyAt (nul : α) (t : Tbl ν α) (keys : List ν) (i : Nat) : List α := keys.map fun a => cell nul t a i

/-- the rows whose key is `k` -/
def rowsWith (nul : α) (t : Tbl ν α) (keys : List ν) (n : Nat) (k : List α) : List Nat := (List.range n).filter fun i => keyAt nul t keys i = k

/-- an accumulator fed with a list of values -/
def aggOf (init : φ → σ) (upd : φ → σ → α → Except Err σ) (val : φ → σ → Except Err α) (f : φ) (values : List α) : Except Err α :=
  (values.foldlM (upd f) (init f)).bind (val f)

/-- the columns a group-by has to give: the keys in first-occurrence order, then for every function its value on the rows of the key -/
def groupView (nul : α) (nm : φ → ν → ν) (t : Tbl ν α) (n : Nat) (keys : List ν) (functions : List (ν × φ)) (agg : ν × φ → List α → α) : List (ν × List α) :=
  (keys.zipIdx.map fun k => (k.1, (firstOccs (keyRows nul t keys n)).map fun key => key.getD k.2 nul)) ++
    functions.map fun f => (nm f.2 f.1, (firstOccs (keyRows nul t keys n)).map (agg f))

/-- the claim for one table and one list of keys and functions -/
def GroupsOk (nul : α) (init : φ → σ) (upd : φ → σ → α → Except Err σ) (val : φ → σ → Except Err α) (nm : φ → ν → ν) (ps : Nat) (t : Tbl ν α) (n : Nat)
    (keys : List ν) (functions : List (ν × φ)) : Prop :=
  ∀ agg : ν × φ → List α → α,
    (∀ f ∈ functions, ∀ k ∈ keyRows nul t keys n, aggOf init upd val f.2 ((rowsWith nul t keys n k).map fun i => cell nul t f.1 i) = .ok (agg f k)) →
    ∃ t', groupby nul init upd val nm ps t keys functions = .ok t' ∧ tview t' = groupView nul nm t n keys functions agg

/-! ## pages -/

theorem toPages_flatten (ps : Nat) (hps : 0 < ps) (l : List α) : colIter (toPages ps l) = l := by
  rw [colIter_eq]
  induction hn : l.length using Nat.strong_induction_on generalizing l with
  | _ n ih =>
    unfold toPages
    by_cases h : l = []
    · subst h; simp
    · rw [dif_pos ⟨hps, h⟩, List.flatten_cons]
      have hl := List.length_pos_iff.2 h
      rw [ih (l.drop ps).length (by simp only [List.length_drop]; omega) (l.drop ps) rfl, List.take_append_drop]

theorem rows_of_layout (nul : α) (L : List Nat) (cols : List (Pages α)) (h : ∀ c ∈ cols, c.map List.length = L) :
    ((List.range L.length).flatMap fun i => (List.range (L.getD i 0)).map fun r => cols.map fun c => (c.getD i []).getD r nul) =
      (List.range L.sum).map fun i => cols.map fun c => c.flatten.getD i nul := by
  induction L generalizing cols with
  | nil => simp
  | cons m L ih =>
    have ih' := ih (cols.map List.tail) (by
      intro c hc
      rw [List.mem_map] at hc
      obtain ⟨c', hc', rfl⟩ := hc
      rw [List.map_tail, h c' hc']; rfl)
    have hc : ∀ c ∈ cols, ∃ p q, c = p :: q ∧ p.length = m := by
      intro c hc
      have := h c hc
      cases c with
      | nil => simp at this
      | cons p q =>
        simp only [List.map_cons, List.cons.injEq] at this
        exact ⟨p, q, rfl, this.1⟩
    rw [List.length_cons, List.range_succ_eq_map, List.flatMap_cons, List.flatMap_map, List.sum_cons, List.range_add, List.map_append]
    congr 1
    · apply List.map_congr_left
      intro r hr
      simp only [List.getD_cons_zero, List.mem_range] at hr
      apply List.map_congr_left
      intro c hcm
      obtain ⟨p, q, rfl, hp⟩ := hc c hcm
      simp only [List.getD_cons_zero, List.flatten_cons]
      rw [List.getD_append _ _ _ _ (by omega)]
    · rw [List.map_map]
      have e1 : ((List.range L.sum).map ((fun i => cols.map fun c => c.flatten.getD i nul) ∘ fun x => m + x)) =
          (List.range L.sum).map fun i => (cols.map List.tail).map fun c => c.flatten.getD i nul := by
        apply List.map_congr_left
        intro i _
        simp only [Function.comp, List.map_map]
        apply List.map_congr_left
        intro c hcm
        obtain ⟨p, q, rfl, hp⟩ := hc c hcm
        simp only [Function.comp, List.tail_cons, List.flatten_cons]
        rw [List.getD_append_right _ _ _ _ (by omega)]
        congr 1; omega
      rw [e1, ← ih']
      congr 1
      funext i
      simp only [List.getD_cons_succ, List.map_map]
      apply List.map_congr_left
      intro r _
      apply List.map_congr_left
      intro c hcm
      obtain ⟨p, q, rfl, hp⟩ := hc c hcm
      simp [Function.comp]

theorem getD_map_length (c : Pages α) (i : Nat) : (c.getD i []).length = (c.map List.length).getD i 0 := by
  simp only [List.getD_eq_getElem?_getD, List.getElem?_map]
  cases c[i]? <;> simp

theorem zipPages_eq (nul : α) (L : List Nat) (cols : List (Pages α)) (hne : cols ≠ []) (h : ∀ c ∈ cols, c.map List.length = L) :
    zipPages cols = (List.range L.sum).map fun i => cols.map fun c => c.flatten.getD i nul := by
  rw [← rows_of_layout nul L cols h]
  unfold zipPages
  have hlen : ∀ c ∈ cols, c.length = L.length := by
    intro c hc; rw [← h c hc, List.length_map]
  have hhead : (cols.head?.getD []).length = L.length := by
    cases cols with
    | nil => exact absurd rfl hne
    | cons c t => exact hlen c (by simp)
  rw [hhead, zipRows_ok [] L.length cols hne hlen, List.flatMap_map]
  rw [List.flatMap_def, List.flatMap_def]
  congr 1
  apply List.map_congr_left
  intro i hi
  have hl : ∀ c ∈ cols, (c.getD i []).length = L.getD i 0 := by
    intro c hc; rw [getD_map_length, h c hc]
  have hh : ((cols.map fun g => g.getD i []).head?.getD []).length = L.getD i 0 := by
    cases cols with
    | nil => exact absurd rfl hne
    | cons c t => exact hl c (by simp)
  rw [hh, zipRows_ok nul (L.getD i 0) _ (by simpa using hne)]
  · apply List.map_congr_left
    intro r _
    rw [List.map_map]; rfl
  · intro g hg
    rw [List.mem_map] at hg
    obtain ⟨c, hc, rfl⟩ := hg
    exact hl c hc

theorem nimIndexRows_eq (nul : α) (L : List Nat) (cols : List (Pages α)) (hne : cols ≠ []) (h : ∀ c ∈ cols, c.map List.length = L) :
    nimIndexRows nul cols = .ok ((List.range L.sum).map fun i => cols.map fun c => c.flatten.getD i nul) := by
  rw [← rows_of_layout nul L cols h]
  cases cols with
  | nil => exact absurd rfl hne
  | cons c0 t =>
    have hlen : ∀ c ∈ c0 :: t, c.length = L.length := by
      intro c hc; rw [← h c hc, List.length_map]
    have hl : ∀ c ∈ c0 :: t, ∀ i, (c.getD i []).length = L.getD i 0 := by
      intro c hc i; rw [getD_map_length, h c hc]
    unfold nimIndexRows
    dsimp only
    rw [if_pos, hlen c0 (by simp)]
    · congr 1
      rw [List.flatMap_def, List.flatMap_def]
      congr 1
      apply List.map_congr_left
      intro i _
      rw [hl c0 (by simp)]
    · simp only [List.all_eq_true, decide_eq_true_eq, List.mem_range]
      intro c hc i hi
      rw [hl c hc, hl c0 (by simp), hlen c hc]
      rw [hlen c0 (by simp)] at hi
      exact ⟨le_rfl, hi⟩

theorem pickPages_ok (t : Tbl ν α) (args : List ν) (h : ∀ a ∈ args, a ∈ t.map (·.1)) :
    pickPages t args = .ok (args.map fun a => (dGet a t).getD []) := by
  unfold pickPages
  apply mapM_ok
  intro a ha
  have := (dGet_isSome a t).2 (h a ha)
  cases e : dGet a t with
  | none => rw [e] at this; cases this
  | some p => rfl

theorem cell_flatten (nul : α) (t : Tbl ν α) (a : ν) (i : Nat) : ((dGet a t).getD []).flatten.getD i nul = cell nul t a i := by
  unfold cell
  cases dGet a t with
  | none => rfl
  | some p => simp only [Option.getD_some, Option.elim, colIter_eq]

theorem neededNames_mem (keys : List ν) (functions : List (ν × φ)) (x : ν) : x ∈ neededNames keys functions ↔ x ∈ keys ∨ x ∈ functions.map (·.1) := by
  unfold neededNames
  induction functions generalizing keys with
  | nil => simp
  | cons f t ih =>
    rw [List.foldl_cons, ih]
    by_cases h : f.1 ∈ keys
    · rw [if_pos h, List.map_cons, List.mem_cons]
      constructor
      · rintro (h | h)
        · exact Or.inl h
        · exact Or.inr (Or.inr h)
      · rintro (h' | h' | h')
        · exact Or.inl h'
        · left; rw [h']; exact h
        · exact Or.inr h'
    · rw [if_neg h, List.map_cons, List.mem_cons, List.mem_append, List.mem_singleton, or_assoc]

theorem storeColumns_view (ps : Nat) (hps : 0 < ps) (cols : List (ν × List α)) (t : Tbl ν α) (hnd : (t.map (·.1) ++ cols.map (·.1)).Nodup) :
    tview (storeColumns ps cols t) = tview t ++ cols := by
  induction cols generalizing t with
  | nil => simp [storeColumns]
  | cons c u ih =>
    obtain ⟨n, vals⟩ := c
    have hnew : n ∉ t.map (·.1) := by
      intro h
      rw [List.nodup_append] at hnd
      exact hnd.2.2 n h n (by simp) rfl
    have e : tblSet t n (toPages ps vals) = t ++ [(n, toPages ps vals)] := by
      unfold tblSet
      clear hnd ih
      induction t with
      | nil => rfl
      | cons c w ih' =>
        obtain ⟨k, p⟩ := c
        simp only [List.map_cons, List.mem_cons, not_or] at hnew
        simp only [dUpd, if_neg (fun e : k = n => hnew.1 e.symm), ih' hnew.2, List.cons_append]
    rw [storeColumns, e, ih]
    · simp [tview, toPages_flatten ps hps]
    · simpa using hnd

theorem feed_fold (nul : α) (upd : φ → σ → α → Except Err σ) (names : List ν) (functions : List (ν × φ)) (g : ν × φ → σ) (rows : List (List α)) :
    rows.foldl (fun b row => feedRow nul upd names functions row b) (functions.map fun f => .ok (g f)) =
      functions.map fun f => (rows.map fun row => rowGet nul names row f.1).foldlM (upd f.2) (g f) := by
  induction rows using List.reverseRecOn with
  | nil => rfl
  | append_singleton rs row ih =>
    rw [List.foldl_append, ih, List.foldl_cons, List.foldl_nil]
    unfold feedRow
    have hz : ∀ (fs : List (ν × φ)) (h : ν × φ → Except Err σ) (k : ν × φ → Except Err σ → Except Err σ), List.zipWith k fs (fs.map h) = fs.map fun f => k f (h f) := by
      intro fs h k
      induction fs with
      | nil => rfl
      | cons a t ih => simp [ih]
    rw [hz]
    apply List.map_congr_left
    intro f _
    rw [List.map_append, List.foldlM_append, List.map_cons, List.map_nil]
    show Except.bind _ _ = Except.bind _ _
    congr 1
    funext s
    rw [List.foldlM_cons]
    show _ = Except.bind _ _
    cases upd f.2 s (rowGet nul names row f.1) <;> rfl

theorem filter_map_range (n : Nat) (g : Nat → List α) (key : List α → List α) (k : List α) :
    ((List.range n).map g).filter (fun x => key x = k) = ((List.range n).filter fun i => key (g i) = k).map g := by
  rw [List.filter_map]; rfl

theorem zipIdx_getD_map {β : Type} (xs : List ν) (out : List β) (row : β → List α) (nul : α) (colv : Nat → List α)
    (h : ∀ j, j < xs.length → (out.map fun r => (row r).getD j nul) = colv j) :
    (xs.zipIdx.map fun k => (k.1, out.map fun r => (row r).getD k.2 nul)) = xs.zipIdx.map fun k => (k.1, colv k.2) := by
  apply List.map_congr_left
  intro k hk
  have := List.snd_lt_of_mem_zipIdx hk
  rw [h k.2 (by simpa using this)]

theorem mapM_raises {β γ : Type} (f : β → Except Err γ) (l : List β) (x : β) (hx : x ∈ l) (h : ∃ e, f x = .error e) : ∃ e, l.mapM f = .error e := by
  induction l with
  | nil => simp at hx
  | cons a t ih =>
    rw [List.mapM_cons]
    cases ha : f a with
    | error e => exact ⟨e, rfl⟩
    | ok y =>
      simp only [List.mem_cons] at hx
      rcases hx with e | hx
      · subst e; obtain ⟨e, he⟩ := h; rw [he] at ha; cases ha
      · obtain ⟨e, he⟩ := ih hx
        rw [he]
        exact ⟨e, rfl⟩

theorem aggregate_rows (nul : α) (init : φ → σ) (upd : φ → σ → α → Except Err σ) (t : Tbl ν α) (L : List Nat) (keys : List ν) (functions : List (ν × φ)) :
    aggregate nul init upd (neededNames keys functions) keys functions
        ((List.range L.sum).map fun i => ((neededNames keys functions).map fun a => (dGet a t).getD []).map fun c => c.flatten.getD i nul) =
      (firstOccs (keyRows nul t keys L.sum)).map fun k => (k, functions.map fun f =>
        ((rowsWith nul t keys L.sum k).map fun i => cell nul t f.1 i).foldlM (upd f.2) (init f.2)) := by
  have hrows : ((List.range L.sum).map fun i => ((neededNames keys functions).map fun a => (dGet a t).getD []).map fun c => c.flatten.getD i nul) =
      (List.range L.sum).map fun i => (neededNames keys functions).map fun a => cell nul t a i := by
    apply List.map_congr_left
    intro i _
    rw [List.map_map]
    apply List.map_congr_left
    intro a _
    exact cell_flatten nul t a i
  rw [hrows]
  have hget : ∀ i cn, cn ∈ keys ∨ cn ∈ functions.map (·.1) →
      rowGet nul (neededNames keys functions) ((neededNames keys functions).map fun a => cell nul t a i) cn = cell nul t cn i := by
    intro i cn hcn
    unfold rowGet
    rw [dGet_zip_map, if_pos ((neededNames_mem keys functions cn).2 hcn)]
    rfl
  have hkeyAt : ∀ i, keys.map (rowGet nul (neededNames keys functions) ((neededNames keys functions).map fun a => cell nul t a i)) = keyAt nul t keys i := by
    intro i
    apply List.map_congr_left
    intro a ha
    exact hget i a (Or.inl ha)
  have hagr : aggregate nul init upd (neededNames keys functions) keys functions
      ((List.range L.sum).map fun i => (neededNames keys functions).map fun a => cell nul t a i) =
      (firstOccs (keyRows nul t keys L.sum)).map fun k => (k, functions.map fun f =>
        ((rowsWith nul t keys L.sum k).map fun i => cell nul t f.1 i).foldlM (upd f.2) (init f.2)) := by
    unfold aggregate
    rw [dGroup_eq, List.map_map]
    have hk : ((List.range L.sum).map ((fun row => keys.map (rowGet nul (neededNames keys functions) row)) ∘
        fun i => (neededNames keys functions).map fun a => cell nul t a i)) = keyRows nul t keys L.sum := by
      apply List.map_congr_left
      intro i _
      exact hkeyAt i
    rw [hk]
    apply List.map_congr_left
    intro k _
    rw [filter_map_range, feed_fold]
    congr 1
    apply List.map_congr_left
    intro f hfm
    rw [List.map_map]
    congr 1
    have hrw : ((List.range L.sum).filter fun i =>
        decide (keys.map (rowGet nul (neededNames keys functions) ((neededNames keys functions).map fun a => cell nul t a i)) = k)) =
        rowsWith nul t keys L.sum k := by
      unfold rowsWith
      apply List.filter_congr
      intro i _
      rw [hkeyAt]
    rw [hrw]
    apply List.map_congr_left
    intro i _
    exact hget i f.1 (Or.inr (List.mem_map_of_mem hfm))
  exact hagr

/-! ## C33 -/

/-- every row of the result is a distinct key in first-occurrence order with the aggregates of exactly its rows, provided the columns used have pages
of the same lengths.  Missing: columns with the same rows in different pages (see `C33_fails`). -/
theorem C33_partial (nul : α) (init : φ → σ) (upd : φ → σ → α → Except Err σ) (val : φ → σ → Except Err α) (nm : φ → ν → ν) (ps : Nat) (hps : 0 < ps)
    (t : Tbl ν α) (L : List Nat) (keys : List ν) (functions : List (ν × φ))
    (hnames : ∀ a ∈ keys ++ functions.map (·.1), ∃ p, dGet a t = some p ∧ p.map List.length = L)
    (hsome : keys.length + functions.length ≠ 0)
    (hnd : (keys ++ functions.map fun f => nm f.2 f.1).Nodup) :
    GroupsOk nul init upd val nm ps t L.sum keys functions := by
  intro agg hagg
  have hkeys : keys.Nodup := (List.nodup_append.1 hnd).1
  unfold groupby
  rw [if_neg hsome, if_neg (not_not.2 hkeys)]
  by_cases hf : functions = []
  · subst hf
    rw [if_pos rfl]
    have hk : keys ≠ [] := by intro e; subst e; simp at hsome
    rw [pickPages_ok t keys (by
      intro a ha
      obtain ⟨p, hp, _⟩ := hnames a (by simp [ha])
      exact (dGet_isSome a t).1 (by rw [hp]; rfl))]
    simp only [bind, Except.bind]
    rw [nimIndexRows_eq nul L _ (by simpa using hk) (by
      intro c hc
      rw [List.mem_map] at hc
      obtain ⟨a, ha, rfl⟩ := hc
      obtain ⟨p, hp, hl⟩ := hnames a (by simp [ha])
      rw [hp]; exact hl)]
    refine ⟨_, rfl, ?_⟩
    have hrows : ((List.range L.sum).map fun i => (keys.map fun a => (dGet a t).getD []).map fun c => c.flatten.getD i nul) = keyRows nul t keys L.sum := by
      unfold keyRows
      apply List.map_congr_left
      intro i _
      rw [List.map_map]
      apply List.map_congr_left
      intro a _
      exact cell_flatten nul t a i
    rw [storeColumns_view ps hps _ _ (by
      simp only [List.map_nil, List.nil_append, List.map_map]
      simpa [Function.comp_def] using hkeys)]
    simp only [tview, List.map_nil, List.nil_append, groupView, List.append_nil]
    apply List.map_congr_left
    intro k _
    rw [hrows, dGroup_eq, List.map_id', List.map_map]
    rfl
  · rw [if_neg hf]
    have hnn : neededNames keys functions ≠ [] := by
      obtain ⟨f, hfm⟩ := List.exists_mem_of_ne_nil functions hf
      intro e
      have := (neededNames_mem keys functions f.1).2 (Or.inr (List.mem_map_of_mem hfm))
      rw [e] at this; simp at this
    have hin : ∀ a ∈ neededNames keys functions, ∃ p, dGet a t = some p ∧ p.map List.length = L := by
      intro a ha
      apply hnames
      rw [List.mem_append]
      exact (neededNames_mem keys functions a).1 ha
    dsimp only
    rw [pickPages_ok t _ (by
      intro a ha
      obtain ⟨p, hp, _⟩ := hin a ha
      exact (dGet_isSome a t).1 (by rw [hp]; rfl))]
    simp only [bind, Except.bind]
    rw [zipPages_eq nul L _ (by simpa using hnn) (by
      intro c hc
      rw [List.mem_map] at hc
      obtain ⟨a, ha, rfl⟩ := hc
      obtain ⟨p, hp, hl⟩ := hin a ha
      rw [hp]; exact hl)]
    rw [aggregate_rows nul init upd t L keys functions]
    have hmap : ∀ (e : List α × List (Except Err σ)), e ∈ ((firstOccs (keyRows nul t keys L.sum)).map fun k => (k, functions.map fun f =>
          ((rowsWith nul t keys L.sum k).map fun i => cell nul t f.1 i).foldlM (upd f.2) (init f.2))) →
        groupRow val functions e = .ok (e.1 ++ functions.map fun f => agg f e.1) := by
      intro e he
      rw [List.mem_map] at he
      obtain ⟨k, hk, rfl⟩ := he
      unfold groupRow
      dsimp only
      have hz : ∀ (fs : List (ν × φ)) (h : ν × φ → Except Err σ), fs.zip (fs.map h) = fs.map fun f => (f, h f) := by
        intro fs h
        induction fs with
        | nil => rfl
        | cons a t ih => simp [ih]
      rw [hz]
      have : ((functions.map fun f => (f, ((rowsWith nul t keys L.sum k).map fun i => cell nul t f.1 i).foldlM (upd f.2) (init f.2))).mapM
          fun x => x.2.bind (val x.1.2)) =
          .ok ((functions.map fun f => (f, ((rowsWith nul t keys L.sum k).map fun i => cell nul t f.1 i).foldlM (upd f.2) (init f.2))).map fun x => agg x.1 k) := by
        apply mapM_ok
        intro x hx
        rw [List.mem_map] at hx
        obtain ⟨f, hfm, rfl⟩ := hx
        exact hagg f hfm k (mem_firstOccs.1 hk)
      rw [this, List.map_map]
      rfl
    rw [mapM_ok _ _ _ hmap]
    refine ⟨_, rfl, ?_⟩
    rw [storeColumns_view ps hps _ _ (by
      simp only [List.map_nil, List.nil_append, List.map_map]
      simpa [Function.comp_def] using hnd)]
    simp only [tview, List.map_nil, List.nil_append, groupView, List.map_map]
    rw [List.zipIdx_append, List.map_append]
    congr 1
    · apply List.map_congr_left
      intro k hk
      have hlt := List.snd_lt_of_mem_zipIdx hk
      congr 1
      apply List.map_congr_left
      intro key hkey
      have hkl : key.length = keys.length := by
        have := mem_firstOccs.1 hkey
        unfold keyRows at this
        rw [List.mem_map] at this
        obtain ⟨i, _, rfl⟩ := this
        simp
      simp only [Function.comp]
      rw [List.getD_append _ _ _ _ (by omega)]
    · apply List.ext_getElem
      · simp
      · intro i h1 h2
        simp only [List.length_map, List.length_zipIdx] at h1 h2
        simp only [List.getElem_map, List.getElem_zipIdx]
        congr 1
        apply List.map_congr_left
        intro key hkey
        have hkl : key.length = keys.length := by
          have := mem_firstOccs.1 hkey
          unfold keyRows at this
          rw [List.mem_map] at this
          obtain ⟨i, _, rfl⟩ := this
          simp
        simp only [Function.comp]
        rw [List.getD_append_right _ _ _ _ (by omega)]
        simp [hkl, List.getD_eq_getElem?_getD, List.getElem?_eq_getElem h2]

/-- an aggregate that cannot be computed makes the whole group-by raise -/
theorem C33_raises (nul : α) (init : φ → σ) (upd : φ → σ → α → Except Err σ) (val : φ → σ → Except Err α) (nm : φ → ν → ν) (ps : Nat)
    (t : Tbl ν α) (L : List Nat) (keys : List ν) (functions : List (ν × φ))
    (hnames : ∀ a ∈ keys ++ functions.map (·.1), ∃ p, dGet a t = some p ∧ p.map List.length = L)
    (f : ν × φ) (hf : f ∈ functions) (k : List α) (hk : k ∈ keyRows nul t keys L.sum) (e : Err)
    (he : aggOf init upd val f.2 ((rowsWith nul t keys L.sum k).map fun i => cell nul t f.1 i) = .error e) :
    ∃ e, groupby nul init upd val nm ps t keys functions = .error e := by
  cases hg : groupby nul init upd val nm ps t keys functions with
  | error e' => exact ⟨e', rfl⟩
  | ok t' =>
    exfalso
    unfold groupby at hg
    have hfne : functions ≠ [] := by intro h; subst h; simp at hf
    have h0 : keys.length + functions.length ≠ 0 := by
      have := List.length_pos_iff.2 hfne; omega
    rw [if_neg h0] at hg
    by_cases hkn : keys.Nodup
    swap
    · rw [if_pos hkn] at hg; cases hg
    rw [if_neg (not_not.2 hkn), if_neg hfne] at hg
    have hnn : neededNames keys functions ≠ [] := by
      intro e
      have := (neededNames_mem keys functions f.1).2 (Or.inr (List.mem_map_of_mem hf))
      rw [e] at this; simp at this
    have hin : ∀ a ∈ neededNames keys functions, ∃ p, dGet a t = some p ∧ p.map List.length = L := by
      intro a ha
      apply hnames
      rw [List.mem_append]
      exact (neededNames_mem keys functions a).1 ha
    dsimp only at hg
    rw [pickPages_ok t _ (by
      intro a ha
      obtain ⟨p, hp, _⟩ := hin a ha
      exact (dGet_isSome a t).1 (by rw [hp]; rfl))] at hg
    simp only [bind, Except.bind] at hg
    rw [zipPages_eq nul L _ (by simpa using hnn) (by
      intro c hc
      rw [List.mem_map] at hc
      obtain ⟨a, ha, rfl⟩ := hc
      obtain ⟨p, hp, hl⟩ := hin a ha
      rw [hp]; exact hl)] at hg
    rw [aggregate_rows nul init upd t L keys functions] at hg
    have : ∃ e', ((firstOccs (keyRows nul t keys L.sum)).map fun k => (k, functions.map fun f =>
          ((rowsWith nul t keys L.sum k).map fun i => cell nul t f.1 i).foldlM (upd f.2) (init f.2))).mapM (groupRow val functions) = .error e' := by
      apply mapM_raises _ _ _ (List.mem_map_of_mem (mem_firstOccs.2 hk))
      unfold groupRow
      dsimp only
      have hz : ∀ (fs : List (ν × φ)) (h : ν × φ → Except Err σ), fs.zip (fs.map h) = fs.map fun f => (f, h f) := by
        intro fs h
        induction fs with
        | nil => rfl
        | cons a t ih => simp [ih]
      rw [hz]
      obtain ⟨e', he'⟩ := mapM_raises (fun x : (ν × φ) × Except Err σ => x.2.bind (val x.1.2)) _ _
        (List.mem_map_of_mem (f := fun f : ν × φ => (f, ((rowsWith nul t keys L.sum k).map fun i => cell nul t f.1 i).foldlM (upd f.2) (init f.2))) hf) ⟨e, he⟩
      rw [he']
      exact ⟨e', rfl⟩
    obtain ⟨e', he'⟩ := this
    rw [he'] at hg
    cases hg

end

/-! ### the accumulators of the code -/

/-- `&"{f}({cn})"`, groupby.nim:677 -/
def accName : Acc → String → String
  | f, cn => (match f with
    | .max => "Max" | .min => "Min" | .sum => "Sum" | .first => "First" | .last => "Last" | .product => "Product" | .count => "Count"
    | .countUnique => "CountUnique" | .average => "Average" | .stdev => "StandardDeviation" | .median => "Median" | .mode => "Mode") ++ "(" ++ cn ++ ")"

theorem aggOf_acc (sqrt : Rat → Rat) (f : Acc) (l : List GVal) : aggOf accInit accUpdate (accValue sqrt) f l = accRun sqrt f l := rfl

/-- the full claim for the accumulators of the code -/
def C33_statement (sqrt : Rat → Rat) : Prop :=
  ∀ (ps : Nat) (t : Tbl String GVal) (n : Nat) (keys : List String) (functions : List (String × Acc)), 0 < ps → Rect t n →
    (∀ a ∈ keys ++ functions.map (·.1), a ∈ t.map (·.1)) → keys.length + functions.length ≠ 0 → (keys ++ functions.map fun f => accName f.2 f.1).Nodup →
    GroupsOk .none accInit accUpdate (accValue sqrt) accName ps t n keys functions

/-- two columns of three rows, in pages of 2+1 and of 1+2 rows: the group of key 2 is lost -/
def misaligned : Tbl String GVal := [("k", [[.int 1, .int 2], [.int 3]]), ("v", [[.int 10], [.int 20, .int 30]])]

theorem C33_fails (sqrt : Rat → Rat) : ¬ C33_statement sqrt := by
  intro h
  obtain ⟨t', h1, h2⟩ := h 10 misaligned 3 ["k"] [("v", .count)] (by decide) (by unfold Rect; decide +kernel) (by decide +kernel) (by decide) (by decide +kernel)
    (fun _ _ => .int 1) (by
      intro f hf k hk
      simp only [List.mem_singleton] at hf
      subst hf
      rw [aggOf_acc, C34_count, List.length_map]
      have : ∀ k ∈ keyRows GVal.none misaligned ["k"] 3, (rowsWith GVal.none misaligned ["k"] 3 k).length = 1 := by decide +kernel
      rw [this k hk]
      rfl)
  have h3 : groupby .none accInit accUpdate (accValue id) accName 10 misaligned ["k"] [("v", .count)] = .ok t' := h1
  have h4 : (match groupby .none accInit accUpdate (accValue id) accName 10 misaligned ["k"] [("v", .count)] with
    | .ok u => tview u | .error _ => []) = groupView .none accName misaligned 3 ["k"] [("v", .count)] (fun _ _ => .int 1) := by rw [h3]; exact h2
  revert h4
  decide +kernel

example : ∀ a ∈ ["k"] ++ [("v", Acc.sum)].map (·.1), ∃ p, dGet a ([("k", [[.int 1, .int 2], [.int 1]]), ("v", [[.int 10, .int 20], [.int 30]])] : Tbl String GVal) = some p ∧
    p.map List.length = [2, 1] := by
  intro a ha
  simp at ha
  rcases ha with h | h <;> subst h
  · exact ⟨_, rfl, rfl⟩
  · exact ⟨_, rfl, rfl⟩

end Tablite
