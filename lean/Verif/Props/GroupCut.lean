import Verif.Props.GroupLaws
/-!
# C33 exactly: group-by of tables whose columns are cut into pages differently

`zip` of pages stops with the shortest: of the `i`-th pages of the columns used, only the common first rows are read.
-/

namespace Tablite
set_option linter.unusedSectionVars false

section

variable {ν α σ φ : Type} [DecidableEq ν] [DecidableEq α]

/-- the least length of some lists -/
def minLen {β : Type} : List (List β) → Nat
  | [] => 0
  | [g] => g.length
  | g :: h :: gs => min g.length (minLen (h :: gs))

theorem minLen_le {β : Type} (gs : List (List β)) (g : List β) (hg : g ∈ gs) : minLen gs ≤ g.length := by
  induction gs with
  | nil => simp at hg
  | cons a gs ih =>
    cases gs with
    | nil => rw [List.mem_singleton.1 hg]; exact Nat.le_refl _
    | cons b gs =>
      rw [minLen]
      rcases List.mem_cons.1 hg with rfl | hg
      · exact Nat.min_le_left _ _
      · exact Nat.le_trans (Nat.min_le_right _ _) (ih hg)

theorem minLen_mem {β : Type} (gs : List (List β)) (hne : gs ≠ []) : ∃ g ∈ gs, g.length = minLen gs := by
  induction gs with
  | nil => exact absurd rfl hne
  | cons a gs ih =>
    cases gs with
    | nil => exact ⟨a, by simp, rfl⟩
    | cons b gs =>
      rw [minLen]
      rcases Nat.le_total a.length (minLen (b :: gs)) with h | h
      · exact ⟨a, by simp, by rw [Nat.min_eq_left h]⟩
      · obtain ⟨g, hg, e⟩ := ih (by simp)
        exact ⟨g, by simp [hg], by rw [Nat.min_eq_right h]; exact e⟩

theorem nextAll_fail (gs : List (List α)) (h : [] ∈ gs) : ∃ e, nextAll gs = .error e := by
  induction gs with
  | nil => simp at h
  | cons g gs ih =>
    cases g with
    | nil => exact ⟨_, rfl⟩
    | cons v g =>
      obtain ⟨e, he⟩ := ih (by simpa using h)
      exact ⟨e, by simp only [nextAll, he]; rfl⟩

/-- `zip` stops with the shortest list -/
theorem zipRows_min (nul : α) (m k : Nat) (gs : List (List α)) (hne : gs ≠ []) (hm : m ≤ k) (h1 : ∀ g ∈ gs, m ≤ g.length) (h2 : ∃ g ∈ gs, g.length = m) :
    zipRows k gs = (List.range m).map fun i => gs.map fun g => g.getD i nul := by
  induction m generalizing gs k with
  | zero =>
    obtain ⟨g, hg, hl⟩ := h2
    rw [List.length_eq_zero_iff] at hl
    subst hl
    cases k with
    | zero => rfl
    | succ k =>
      obtain ⟨e, he⟩ := nextAll_fail gs hg
      simp only [zipRows, if_neg hne, he]
      rfl
  | succ m ih =>
    obtain ⟨k, rfl⟩ : ∃ k', k = k' + 1 := ⟨k - 1, by omega⟩
    have hne' : ∀ g ∈ gs, g ≠ [] := by
      intro g hg e
      have := h1 g hg
      simp [e] at this
    simp only [zipRows, nextAll_ok nul gs hne', if_neg hne]
    rw [ih k (gs.map List.tail) (by simpa using hne) (by omega) (by
      intro g hg
      obtain ⟨g', hg', rfl⟩ := List.mem_map.1 hg
      have := h1 g' hg'
      simp; omega) (by
      obtain ⟨g, hg, hl⟩ := h2
      exact ⟨g.tail, List.mem_map_of_mem hg, by simp; omega⟩), range_succ_map]
    congr 1
    apply List.map_congr_left
    intro i _
    rw [List.map_map]
    apply List.map_congr_left
    intro g _
    exact tail_getD nul g i

/-- the rows that are read of each page -/
def cutLayout (cols : List (Pages α)) : List Nat := (List.range (minLen cols)).map fun i => minLen (cols.map fun c => c.getD i [])

/-- a column as it is read -/
def cutCol (L : List Nat) (c : Pages α) : Pages α := (List.range L.length).map fun i => (c.getD i []).take (L.getD i 0)

theorem cutLayout_le (cols : List (Pages α)) (c : Pages α) (hc : c ∈ cols) : (cutLayout cols).length ≤ c.length ∧ ∀ i, (cutLayout cols).getD i 0 ≤ (c.getD i []).length := by
  refine ⟨?_, fun i => ?_⟩
  · rw [cutLayout, List.length_map, List.length_range]
    exact minLen_le cols c hc
  · unfold cutLayout
    by_cases hi : i < minLen cols
    · rw [List.getD_eq_getElem _ _ (by simpa using hi)]
      simp only [List.getElem_map, List.getElem_range]
      exact minLen_le _ _ (List.mem_map.2 ⟨c, hc, rfl⟩)
    · rw [List.getD_eq_default _ _ (by simpa using hi)]
      exact Nat.zero_le _

theorem cutCol_layout (cols : List (Pages α)) (c : Pages α) (hc : c ∈ cols) : (cutCol (cutLayout cols) c).map List.length = cutLayout cols := by
  apply List.ext_getElem (by simp [cutCol])
  intro i h1 h2
  have h3 := (cutLayout_le cols c hc).2 i
  simp only [cutCol, List.getElem_map, List.getElem_range, List.length_take]
  rw [Nat.min_eq_left h3, List.getD_eq_getElem _ _ h2]

/-- the rows read are the rows of the columns as they are cut -/
theorem zipPages_cut (nul : α) (cols : List (Pages α)) (hne : cols ≠ []) : zipPages cols = zipPages (cols.map (cutCol (cutLayout cols))) := by
  have hl : ∀ c ∈ cols.map (cutCol (cutLayout cols)), c.map List.length = cutLayout cols := by
    intro c hc
    obtain ⟨c', hc', rfl⟩ := List.mem_map.1 hc
    exact cutCol_layout cols c' hc'
  rw [zipPages_eq nul (cutLayout cols) _ (by simpa using hne) hl, ← rows_of_layout nul (cutLayout cols) _ hl]
  have hlen : (cutLayout cols).length = minLen cols := by simp [cutLayout]
  unfold zipPages
  have hh : ∀ {β : Type} (gs : List (List β)), gs ≠ [] → minLen gs ≤ (gs.head?.getD []).length := by
    intro β gs h
    cases gs with
    | nil => exact absurd rfl h
    | cons g gs => exact minLen_le _ g (by simp)
  rw [zipRows_min [] (minLen cols) _ cols hne (hh cols hne) (minLen_le cols) (minLen_mem cols hne), List.flatMap_map, hlen]
  rw [List.flatMap_def, List.flatMap_def]
  congr 1
  apply List.map_congr_left
  intro i hi
  rw [List.mem_range] at hi
  have hpn : (cols.map fun c => c.getD i []) ≠ [] := by simpa using hne
  rw [zipRows_min nul _ _ _ hpn (hh _ hpn) (minLen_le _) (minLen_mem _ hpn)]
  have hL : (cutLayout cols).getD i 0 = minLen (cols.map fun c => c.getD i []) := by
    unfold cutLayout
    rw [List.getD_eq_getElem _ _ (by simpa using hi)]
    simp
  rw [hL]
  apply List.map_congr_left
  intro r hr
  rw [List.mem_range] at hr
  rw [List.map_map, List.map_map]
  apply List.map_congr_left
  intro c _
  simp only [Function.comp, cutCol]
  have e : ((List.range (cutLayout cols).length).map fun i => (c.getD i []).take ((cutLayout cols).getD i 0)).getD i [] = (c.getD i []).take ((cutLayout cols).getD i 0) := by
    rw [List.getD_eq_getElem _ _ (by simpa [hlen] using hi)]
    simp
  rw [e, hL]
  generalize c.getD i [] = p
  rw [List.getD_eq_getElem?_getD, List.getD_eq_getElem?_getD, List.getElem?_take, if_pos hr]

/-- the columns that a group-by uses -/
def usedCols (t : Tbl ν α) (keys : List ν) (functions : List (ν × φ)) : List (Pages α) := (neededNames keys functions).map fun a => (dGet a t).getD []

/-- the table as a group-by reads it: of every column used, the common first rows of each page -/
def cutTbl (t : Tbl ν α) (keys : List ν) (functions : List (ν × φ)) : Tbl ν α := t.map fun c => (c.1, cutCol (cutLayout (usedCols t keys functions)) c.2)

/-- the number of rows that are read -/
def cutRows (t : Tbl ν α) (keys : List ν) (functions : List (ν × φ)) : Nat := (cutLayout (usedCols t keys functions)).sum

theorem names_cutTbl (t : Tbl ν α) (keys : List ν) (functions : List (ν × φ)) : (cutTbl t keys functions).map (·.1) = t.map (·.1) := by
  simp [cutTbl, Function.comp_def]

theorem dGet_cutTbl (t : Tbl ν α) (keys : List ν) (functions : List (ν × φ)) (a : ν) :
    dGet a (cutTbl t keys functions) = (dGet a t).map (cutCol (cutLayout (usedCols t keys functions))) := by
  unfold cutTbl
  exact dGet_map_val _ t a

theorem needed_ne (keys : List ν) (functions : List (ν × φ)) (hf : functions ≠ []) : neededNames keys functions ≠ [] := by
  obtain ⟨f, hfm⟩ := List.exists_mem_of_ne_nil functions hf
  intro e
  have := (neededNames_mem keys functions f.1).2 (Or.inr (List.mem_map_of_mem hfm))
  rw [e] at this; simp at this

/-- group-by does not see what is cut -/
theorem groupby_cut (nul : α) (init : φ → σ) (upd : φ → σ → α → Except Err σ) (val : φ → σ → Except Err α) (nm : φ → ν → ν) (ps : Nat) (t : Tbl ν α)
    (keys : List ν) (functions : List (ν × φ)) (hf : functions ≠ []) (hnames : ∀ a ∈ keys ++ functions.map (·.1), a ∈ t.map (·.1)) :
    groupby nul init upd val nm ps t keys functions = groupby nul init upd val nm ps (cutTbl t keys functions) keys functions := by
  have hin : ∀ a ∈ neededNames keys functions, a ∈ t.map (·.1) := fun a ha => hnames a (List.mem_append.2 ((neededNames_mem keys functions a).1 ha))
  unfold groupby
  simp only [if_neg hf]
  rw [pickPages_ok t _ hin, pickPages_ok (cutTbl t keys functions) _ (by rw [names_cutTbl]; exact hin)]
  have e : ((neededNames keys functions).map fun a => (dGet a (cutTbl t keys functions)).getD []) = (usedCols t keys functions).map (cutCol (cutLayout (usedCols t keys functions))) := by
    conv_rhs => rw [usedCols, List.map_map]
    apply List.map_congr_left
    intro a ha
    have := (dGet_isSome a t).2 (hin a ha)
    rw [dGet_cutTbl]
    simp only [Function.comp]
    cases h : dGet a t with
    | none => rw [h] at this; cases this
    | some p => rfl
  simp only [bind, Except.bind]
  rw [e, ← zipPages_cut nul _ (by simpa [usedCols] using needed_ne keys functions hf)]
  rfl

theorem cut_aligned (t : Tbl ν α) (keys : List ν) (functions : List (ν × φ)) (hnames : ∀ a ∈ keys ++ functions.map (·.1), a ∈ t.map (·.1)) :
    ∀ a ∈ keys ++ functions.map (·.1), ∃ p, dGet a (cutTbl t keys functions) = some p ∧ p.map List.length = cutLayout (usedCols t keys functions) := by
  intro a ha
  have := (dGet_isSome a t).2 (hnames a ha)
  rw [dGet_cutTbl]
  cases h : dGet a t with
  | none => rw [h] at this; cases this
  | some p =>
    refine ⟨_, rfl, cutCol_layout _ p (List.mem_map.2 ⟨a, (neededNames_mem keys functions a).2 (List.mem_append.1 ha), by rw [h]; rfl⟩)⟩

/-- **C33** (effect).  Whatever the pages of the columns are, a group-by with functions gives the groups of the table as it is cut: of the `i`-th pages only the common first
rows, and no pages beyond the least number of pages. -/
theorem C33_effect (nul : α) (init : φ → σ) (upd : φ → σ → α → Except Err σ) (val : φ → σ → Except Err α) (nm : φ → ν → ν) (ps : Nat) (hps : 0 < ps)
    (t : Tbl ν α) (keys : List ν) (functions : List (ν × φ)) (hf : functions ≠ []) (hnames : ∀ a ∈ keys ++ functions.map (·.1), a ∈ t.map (·.1))
    (hnd : (keys ++ functions.map fun f => nm f.2 f.1).Nodup) (agg : ν × φ → List α → α)
    (hagg : ∀ f ∈ functions, ∀ k ∈ keyRows nul (cutTbl t keys functions) keys (cutRows t keys functions),
      aggOf init upd val f.2 ((rowsWith nul (cutTbl t keys functions) keys (cutRows t keys functions) k).map fun i => cell nul (cutTbl t keys functions) f.1 i) = .ok (agg f k)) :
    ∃ t', groupby nul init upd val nm ps t keys functions = .ok t' ∧ tview t' = groupView nul nm (cutTbl t keys functions) (cutRows t keys functions) keys functions agg := by
  rw [groupby_cut nul init upd val nm ps t keys functions hf hnames]
  exact C33_partial nul init upd val nm ps hps (cutTbl t keys functions) _ keys functions (cut_aligned t keys functions hnames)
    (by have := List.length_pos_iff.2 hf; omega) hnd agg hagg

theorem sum_cut (L : List Nat) (c : Pages α) (hl : L.length ≤ c.length) (h : ∀ i, L.getD i 0 ≤ (c.getD i []).length) : L.sum ≤ c.flatten.length := by
  induction L generalizing c with
  | nil => simp
  | cons m L ih =>
    cases c with
    | nil => simp at hl
    | cons p c =>
      have h0 := h 0
      simp only [List.getD_cons_zero] at h0
      have := ih c (by simpa using hl) (fun i => by have := h (i + 1); simpa using this)
      rw [List.sum_cons, List.flatten_cons, List.length_append]
      omega

theorem flatten_cut (L : List Nat) (c : Pages α) (hl : L.length ≤ c.length) (h : ∀ i, L.getD i 0 ≤ (c.getD i []).length) (hs : L.sum = c.flatten.length) :
    (cutCol L c).flatten = c.flatten := by
  induction L generalizing c with
  | nil =>
    have : c.flatten = [] := List.length_eq_zero_iff.1 (by rw [← hs]; rfl)
    rw [this]
    rfl
  | cons m L ih =>
    cases c with
    | nil => simp at hl
    | cons p c =>
      have h0 := h 0
      simp only [List.getD_cons_zero] at h0
      have hl' : L.length ≤ c.length := by simpa using hl
      have h' : ∀ i, L.getD i 0 ≤ (c.getD i []).length := fun i => by have := h (i + 1); simpa using this
      have h1 := sum_cut L c hl' h'
      rw [List.sum_cons, List.flatten_cons, List.length_append] at hs
      have e : cutCol (m :: L) (p :: c) = p.take m :: cutCol L c := by
        unfold cutCol
        rw [List.length_cons, range_succ_map]
        rfl
      rw [e, List.flatten_cons, List.flatten_cons, ih c hl' h' (by omega), List.take_of_length_le (by omega)]

/-- the rows read are at most the rows of the table -/
theorem cutRows_le (t : Tbl ν α) (n : Nat) (ht : Rect t n) (keys : List ν) (functions : List (ν × φ)) (hf : functions ≠ []) (hnames : ∀ a ∈ keys ++ functions.map (·.1), a ∈ t.map (·.1)) :
    cutRows t keys functions ≤ n := by
  obtain ⟨a, ha⟩ := List.exists_mem_of_ne_nil _ (needed_ne keys functions hf)
  have hs := (dGet_isSome a t).2 (hnames a (List.mem_append.2 ((neededNames_mem keys functions a).1 ha)))
  cases h : dGet a t with
  | none => rw [h] at hs; cases hs
  | some p =>
    have hp : p ∈ usedCols t keys functions := List.mem_map.2 ⟨a, ha, by rw [h]; rfl⟩
    have h1 := cutLayout_le _ p hp
    have := sum_cut _ p h1.1 h1.2
    have hn := ht _ (dGet_some_mem a t p h)
    rw [colLen_eq] at hn
    rw [← hn]
    exact this

/-- if no row is lost, the table as it is cut has the same cells in the columns used -/
theorem cell_cut (nul : α) (t : Tbl ν α) (n : Nat) (ht : Rect t n) (keys : List ν) (functions : List (ν × φ)) (h : cutRows t keys functions = n) (a : ν)
    (ha : a ∈ keys ++ functions.map (·.1)) (i : Nat) : cell nul (cutTbl t keys functions) a i = cell nul t a i := by
  unfold cell
  rw [dGet_cutTbl]
  cases hd : dGet a t with
  | none => rfl
  | some p =>
    have hp : p ∈ usedCols t keys functions := List.mem_map.2 ⟨a, (neededNames_mem keys functions a).2 (List.mem_append.1 ha), by rw [hd]; rfl⟩
    have h1 := cutLayout_le _ p hp
    have hn := ht _ (dGet_some_mem a t p hd)
    rw [colLen_eq] at hn
    simp only [Option.map_some, Option.elim_some]
    rw [colIter_eq, colIter_eq, flatten_cut _ p h1.1 h1.2 (by rw [hn]; exact h)]

/-- **C33** (layouts).  Group-by is right for every table whose used columns lose no row: their pages have the same lengths, up to empty pages. -/
theorem C33_layout (nul : α) (init : φ → σ) (upd : φ → σ → α → Except Err σ) (val : φ → σ → Except Err α) (nm : φ → ν → ν) (ps : Nat) (hps : 0 < ps)
    (t : Tbl ν α) (n : Nat) (ht : Rect t n) (keys : List ν) (functions : List (ν × φ)) (hf : functions ≠ []) (hnames : ∀ a ∈ keys ++ functions.map (·.1), a ∈ t.map (·.1))
    (hnd : (keys ++ functions.map fun f => nm f.2 f.1).Nodup) (h : cutRows t keys functions = n) : GroupsOk nul init upd val nm ps t n keys functions := by
  intro agg hagg
  have hc := cell_cut nul t n ht keys functions h
  have hkey : ∀ i, (keys.map fun a => cell nul (cutTbl t keys functions) a i) = keys.map fun a => cell nul t a i := fun i =>
    List.map_congr_left fun a ha => hc a (by simp [ha]) i
  have hk : keyRows nul (cutTbl t keys functions) keys n = keyRows nul t keys n := by
    unfold keyRows
    exact List.map_congr_left fun i _ => hkey i
  have hw : ∀ k, rowsWith nul (cutTbl t keys functions) keys n k = rowsWith nul t keys n k := by
    intro k
    unfold rowsWith keyAt
    simp only [hkey]
  obtain ⟨t', h1, h2⟩ := C33_effect nul init upd val nm ps hps t keys functions hf hnames hnd agg (by
    rw [h, hk]
    intro f hfm k hkm
    rw [hw, ← hagg f hfm k hkm]
    congr 1
    exact List.map_congr_left fun i _ => hc f.1 (by rw [List.mem_append]; exact Or.inr (List.mem_map_of_mem hfm)) i)
  refine ⟨t', h1, ?_⟩
  rw [h2, h]
  unfold groupView
  rw [hk]

end

section

variable {ν : Type} [DecidableEq ν]

theorem count_total (t : Tbl ν GVal) (keys : List ν) (n : Nat) :
    ((firstOccs (keyRows .none t keys n)).map fun k => (rowsWith .none t keys n k).length).sum = n := by
  have := sum_groups (fun i => keys.map fun a => cell .none t a i) (fun _ => 1) (List.range n)
  simp only [List.map_const', List.sum_replicate, nsmul_eq_mul, mul_one, List.length_range, Nat.cast_id] at this
  exact this

/-- **C33** (exact).  Counting the rows of each key is right exactly when the pages of the columns used have the same lengths up to empty pages, so that no row is lost. -/
theorem C33_exact (sqrt : Rat → Rat) (nm : Acc → ν → ν) (ps : Nat) (hps : 0 < ps) (t : Tbl ν GVal) (n : Nat) (ht : Rect t n) (keys : List ν) (c : ν)
    (hnames : ∀ a ∈ keys ++ [c], a ∈ t.map (·.1)) (hnd : (keys ++ [nm .count c]).Nodup) :
    GroupsOk .none accInit accUpdate (accValue sqrt) nm ps t n keys [(c, .count)] ↔ cutRows t keys [(c, Acc.count)] = n := by
  constructor
  · intro h
    have hcount : ∀ (u : Tbl ν GVal) (m : Nat), ∀ f ∈ [(c, Acc.count)], ∀ k ∈ keyRows GVal.none u keys m,
        aggOf accInit accUpdate (accValue sqrt) f.2 ((rowsWith .none u keys m k).map fun i => cell .none u f.1 i) = .ok (GVal.int (rowsWith .none u keys m k).length) := by
      intro u m f hf k _
      simp only [List.mem_singleton] at hf
      subst hf
      rw [aggOf_acc, C34_count, List.length_map]
    obtain ⟨t', h1, h2⟩ := h (fun _ k => GVal.int (rowsWith .none t keys n k).length) (hcount t n)
    obtain ⟨t'', h3, h4⟩ := C33_effect .none accInit accUpdate (accValue sqrt) nm ps hps t keys [(c, Acc.count)] (by simp) (by simpa using hnames) (by simpa using hnd)
      (fun _ k => GVal.int (rowsWith .none (cutTbl t keys [(c, Acc.count)]) keys (cutRows t keys [(c, Acc.count)]) k).length) (hcount _ _)
    rw [h1] at h3
    injection h3 with h3
    rw [← h3, h2] at h4
    simp only [groupView, List.map_cons, List.map_nil] at h4
    have h5 := (List.append_inj_right' h4 rfl)
    simp only [List.cons.injEq, Prod.mk.injEq, and_true, true_and] at h5
    have h6 := congrArg (List.map fun v : GVal => match v with | .int i => i.toNat | _ => 0) h5
    simp only [List.map_map, Function.comp_def, Int.toNat_natCast] at h6
    have h7 := congrArg List.sum h6
    rw [count_total, count_total] at h7
    exact h7.symm
  · exact C33_layout .none accInit accUpdate (accValue sqrt) nm ps hps t n ht keys [(c, Acc.count)] (by simp) (by simpa using hnames) (by simpa using hnd)

/-- three rows in pages of 2 and 1: an empty page at the end of the other column does no harm, one at its start loses rows -/
example : cutRows [("k", [[GVal.int 1, .int 2], [.int 1]]), ("v", [[.int 10, .int 20], [.int 30], []])] ["k"] [("v", Acc.count)] = 3 ∧
    cutRows [("k", [[GVal.int 1, .int 2], [.int 1]]), ("v", [[], [.int 10, .int 20], [.int 30]])] ["k"] [("v", Acc.count)] = 1 ∧
    cutRows misaligned ["k"] [("v", Acc.count)] = 2 := by decide +kernel

end

end Tablite
