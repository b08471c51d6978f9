import Verif.Props.GroupOrder
import Verif.Props.StackLaws
/-!
# Group-by of reordered tables

`C120_order` is about tables whose named columns have pages of the same lengths. Reordered tables (`reindex`, `sort`) always have: every column is cut the same way.
-/

namespace Tablite

section
variable {α : Type}

/-- the lengths of the pages for `n` values -/
def layoutOf (ps n : Nat) : List Nat := (paginate ps (List.replicate n ())).map List.length

theorem paginateLoop_layout {β : Type} (ps : Nat) (v : List α) (w : List β) (h : v.length = w.length) (k s : Nat) :
    (paginateLoop ps v k s).map List.length = (paginateLoop ps w k s).map List.length := by
  induction k generalizing s with
  | zero => rfl
  | succ k ih =>
    simp only [paginateLoop, List.map_cons, List.length_drop, List.length_take, h]
    rw [ih]

theorem paginate_layout (ps : Nat) (v : List α) : (paginate ps v).map List.length = layoutOf ps v.length := by
  unfold layoutOf paginate
  rw [List.length_replicate]
  exact paginateLoop_layout ps v _ (by simp) _ _

theorem foldlM_extend_layout {β : Type} (ps : Nat) (steps : List β) (f : β → Except Err (List α)) (g : β → Nat) (h : ∀ s ∈ steps, ∀ r, f s = .ok r → r.length = g s)
    (init q : Pages α) (hq : steps.foldlM (fun new s => do let v ← f s; Except.ok (extend ps new v)) init = .ok q) :
    q.map List.length = init.map List.length ++ (steps.map fun s => layoutOf ps (g s)).flatten := by
  induction steps generalizing init with
  | nil => cases hq; simp
  | cons a t ih =>
    rw [List.foldlM_cons] at hq
    cases hf : f a with
    | error e => rw [hf] at hq; cases hq
    | ok v =>
      rw [hf] at hq
      rw [ih (fun s hs => h s (by simp [hs])) _ hq]
      unfold extend
      rw [List.map_append, paginate_layout, h a (by simp) v hf, List.map_cons, List.flatten_cons, List.append_assoc]

/-- the pages of a reindexed column depend on the number of rows only -/
theorem reindexCol_layout (ps : Nat) (nul : α) (pages q : Pages α) (index : List Int) (hv : ∀ i ∈ index, 0 ≤ i ∧ i < colLen pages) (hq : reindexCol ps nul pages index = .ok q) :
    q.map List.length = ((pageSteps ps index.length).map fun se => layoutOf ps (min se.2 index.length - se.1)).flatten := by
  unfold reindexCol at hq
  have := foldlM_extend_layout ps (pageSteps ps index.length) (fun se => reindexChunk nul pages index.length ((index.take se.2).drop se.1))
    (fun se => min se.2 index.length - se.1) (by
      intro se _ r hr
      have hsub : ∀ i ∈ (index.take se.2).drop se.1, i ∈ index := fun i hi => List.mem_of_mem_take (List.mem_of_mem_drop hi)
      rw [reindexChunk_ok nul pages _ _ (fun i hi => Or.inr (hv i (hsub i hi))) (fun h => absurd (hv _ (hsub _ h)).1 (by omega))
        (fun h => absurd (hv _ (hsub _ h)).1 (by omega))] at hr
      injection hr with hr
      rw [← hr, List.length_map, List.length_drop, List.length_take]) [] q hq
  simpa using this

end

section
variable {ν : Type} [DecidableEq ν]

theorem mapM_mem {β γ : Type} (f : β → Except Err γ) (l : List β) (r : List γ) (h : l.mapM f = .ok r) : ∀ y ∈ r, ∃ x ∈ l, f x = .ok y := by
  induction l generalizing r with
  | nil => cases h; simp
  | cons a l ih =>
    rw [List.mapM_cons] at h
    cases ha : f a with
    | error e => rw [ha] at h; cases h
    | ok b =>
      cases hl : l.mapM f with
      | error e => rw [ha, hl] at h; cases h
      | ok bs =>
        rw [ha, hl] at h
        cases h
        intro y hy
        rcases List.mem_cons.1 hy with rfl | hy
        · exact ⟨a, by simp, ha⟩
        · obtain ⟨x, hx, e⟩ := ih bs hl y hy
          exact ⟨x, by simp [hx], e⟩

/-- a reindexed table can be grouped, whatever the pages of the table were -/
theorem reindex_groupable (ps : Nat) (hps : 0 < ps) (t : Tbl ν GVal) (n : Nat) (ht : Rect t n) (hne : t ≠ []) (idx : List Nat) (hi : ∀ i ∈ idx, i < n) (names : List ν)
    (hn : ∀ a ∈ names, a ∈ t.map (·.1)) :
    ∃ u, tblReindex ps .none t (idx.map fun (i : Nat) => (i : Int)) = .ok u ∧ u.map (·.1) = t.map (·.1) ∧
      Groupable u (idx.map fun i => t.map fun c => (colIter c.2).getD i .none) names := by
  obtain ⟨u, h1, h2⟩ := reindex_view ps hps .none t n ht idx hi
  have hnames : u.map (·.1) = t.map (·.1) := by
    rw [← names_tview, h2, rowsOf, List.map_map]
    rfl
  have hrect : Rect u idx.length := by
    intro c hc
    have : (c.1, colIter c.2) ∈ tview u := List.mem_map.2 ⟨c, hc, rfl⟩
    rw [h2, rowsOf] at this
    obtain ⟨d, -, e⟩ := List.mem_map.1 this
    have := congrArg (fun x => x.2.length) e
    simp only [List.length_map] at this
    rw [colLen_eq, ← colIter_eq]
    exact this.symm
  have hune : u ≠ [] := by
    rintro rfl
    apply hne
    simpa using hnames.symm
  refine ⟨u, h1, hnames, ?_, by rwa [List.length_map], ((pageSteps ps idx.length).map fun se => layoutOf ps (min se.2 idx.length - se.1)).flatten, ?_⟩
  · rw [rows_tview .none u idx.length hrect hune, h2]
    congr 1
    apply List.ext_getElem
    · simp
    · intro j j1 j2
      simp only [List.getElem_map, List.getElem_range, rowsOf, List.map_map]
      apply List.map_congr_left
      intro c _
      have : j < idx.length := by simpa using j2
      simp [Function.comp, List.getD_eq_getElem?_getD, this]
  · intro a ha
    have : (dGet a u).isSome := by
      rw [dGet_isSome, hnames]
      exact hn a ha
    obtain ⟨p, hp⟩ := Option.isSome_iff_exists.1 this
    refine ⟨p, hp, ?_⟩
    obtain ⟨c, hc, e⟩ := mapM_mem _ _ _ h1 _ (dGet_some_mem a u p hp)
    cases hr : reindexCol ps GVal.none c.2 (idx.map fun (i : Nat) => (i : Int)) with
    | error x => rw [hr] at e; cases e
    | ok q =>
      rw [hr] at e
      injection e with e
      injection e with _ e
      subst e
      have := reindexCol_layout ps GVal.none c.2 q _ (by
        intro i hi'
        obtain ⟨k, hk, rfl⟩ := List.mem_map.1 hi'
        have := hi k hk
        rw [ht c hc]
        omega) hr
      rwa [List.length_map] at this

/-- **C120** sorting before grouping changes nothing but the order of the groups: the table rearranged by any permutation of its rows – as `sort` does – has the same
groups, for functions other than `first` and `last`. -/
theorem C120_sorted (sqrt : Rat → Rat) (nm : Acc → ν → ν) (ps : Nat) (hps : 0 < ps) (t g : Tbl ν GVal) (R : List (List GVal)) (keys : List ν) (fs : List (ν × Acc)) (idx : List Nat)
    (ht : Groupable t R (keys ++ fs.map (·.1))) (hp : idx.Perm (List.range R.length))
    (hsome : keys ++ fs.map (·.1) ≠ []) (hnd : (groupNames nm keys fs).Nodup) (hf : ∀ f ∈ fs, f.2 ≠ .first ∧ f.2 ≠ .last)
    (hm : ∀ f ∈ fs, f.2 = .median ∨ f.2 = .mode → NoTwin (R.map fun r => rowGet .none (t.map (·.1)) r f.1)) (hg : groupbyG sqrt nm ps t keys fs = .ok g) :
    ∃ u h G H, tblReindex ps .none t (idx.map fun (i : Nat) => (i : Int)) = .ok u ∧ groupbyG sqrt nm ps u keys fs = .ok h ∧ h.map (·.1) = g.map (·.1) ∧
      tblRows .none g = .ok G ∧ tblRows .none h = .ok H ∧ G.Perm H := by
  obtain ⟨h1, h2, L, h3⟩ := ht
  have hin : ∀ a ∈ keys ++ fs.map (·.1), a ∈ t.map (·.1) := by
    intro a ha
    obtain ⟨p, hp, -⟩ := h3 a ha
    rw [← dGet_isSome, hp]
    rfl
  have hne : t ≠ [] := by
    obtain ⟨a, ha⟩ := List.exists_mem_of_ne_nil _ hsome
    rintro rfl
    simpa using hin a ha
  obtain ⟨u, u1, u2, u3⟩ := reindex_groupable ps hps t R.length h2 hne idx (fun i hi => List.mem_range.1 (hp.mem_iff.1 hi)) _ hin
  have hR : R = (List.range R.length).map fun i => t.map fun c => (colIter c.2).getD i .none := by
    rw [C15_rows, tblLen_rect t _ h2 hne] at h1
    injection h1 with h1
    exact h1.symm
  have hperm : R.Perm (idx.map fun i => t.map fun c => (colIter c.2).getD i .none) := by
    conv_lhs => rw [hR]
    exact (hp.map _).symm
  obtain ⟨h, G, H, e1, e2, e3, e4, e5⟩ := C120_order sqrt nm ps hps t u g R _ keys fs ⟨h1, h2, L, h3⟩ u3 u2.symm hperm hsome hnd hf hm hg
  exact ⟨u, h, G, H, u1, e1, e2, e3, e4, e5⟩

end

/-! ## Examples -/

/-- the rows of `sales` -/
def salesRows : List (List GVal) := [[.str "n", .int 1, .int 5], [.str "s", .int 1, .float 7], [.str "n", .int 2, .int 9]]

example : Groupable sales salesRows (["region"] ++ [("amount", Acc.sum)].map (·.1)) ∧ [2, 0, 1].Perm (List.range salesRows.length) ∧
    (groupNames accName ["region"] [("amount", Acc.sum)]).Nodup := by
  refine ⟨⟨by decide +kernel, ?_, [2, 1], ?_⟩, by decide, by decide +kernel⟩
  · intro c hc
    simp only [sales, List.mem_cons, List.not_mem_nil, or_false] at hc
    rcases hc with rfl | rfl | rfl <;> decide +kernel
  · intro a ha
    simp only [List.map_cons, List.map_nil, List.cons_append, List.nil_append, List.mem_cons, List.not_mem_nil, or_false] at ha
    rcases ha with rfl | rfl
    · exact ⟨[[.str "n", .str "s"], [.str "n"]], by decide +kernel, by decide⟩
    · exact ⟨[[.int 5, .float 7], [.int 9]], by decide +kernel, by decide⟩

example : groupbyG (fun x => x) accName 2 sales ["region"] [("amount", .sum)] = .ok [("region", [[.str "n", .str "s"]]), (accName .sum "amount", [[.float 14, .float 7]])] := by
  decide +kernel

/-- the first two sales and the last sale, for `C120_merge_sum`: the sums of the parts … -/
example : groupbyG (fun x => x) accName 2 [("region", [[.str "n", .str "s"]]), ("amount", [[.int 5, .float 7]])] ["region"] [("amount", .sum)] =
      .ok [("region", [[.str "n", .str "s"]]), (accName .sum "amount", [[.float 5, .float 7]])] ∧
    groupbyG (fun x => x) accName 2 [("region", [[.str "n"]]), ("amount", [[.int 9]])] ["region"] [("amount", .sum)] =
      .ok [("region", [[.str "n"]]), (accName .sum "amount", [[.float 9]])] := by decide +kernel

/-- … can be grouped … -/
example : Groupable [("region", [[.str "n", .str "s"]]), ("amount", [[.int 5, .float 7]])] [[.str "n", .int 5], [.str "s", .float 7]] (["region"] ++ ["amount"]) ∧
    Groupable [("region", [[.str "n"]]), ("amount", [[.int 9]])] [[.str "n", .int 9]] (["region"] ++ ["amount"]) ∧
    Groupable [("region", [[.str "n", .str "s"], [.str "n"]]), ("amount", [[.int 5, .float 7], [.int 9]])] ([[.str "n", .int 5], [.str "s", .float 7]] ++ [[.str "n", .int 9]]) (["region"] ++ ["amount"]) ∧
    Groupable [("region", [[.str "n", .str "s"], [.str "n"]]), (accName .sum "amount", [[.float 5, .float 7], [.float 9]])] ([[.str "n", .float 5], [.str "s", .float 7]] ++ [[.str "n", .float 9]])
      (["region"] ++ [accName .sum "amount"]) := by
  have key : ∀ (a b : String) (p q : Pages GVal) (R : List (List GVal)), a ≠ b → tblRows .none [(a, p), (b, q)] = .ok R → colLen p = R.length → colLen q = R.length →
      p.map List.length = q.map List.length → Groupable [(a, p), (b, q)] R ([a] ++ [b]) := by
    intro a b p q R hab h1 h2 h3 h4
    refine ⟨h1, ?_, p.map List.length, ?_⟩
    · intro c hc
      simp only [List.mem_cons, List.not_mem_nil, or_false] at hc
      rcases hc with rfl | rfl
      · exact h2
      · exact h3
    · intro x hx
      simp only [List.cons_append, List.nil_append, List.mem_cons, List.not_mem_nil, or_false] at hx
      rcases hx with rfl | rfl
      · exact ⟨p, by simp [dGet], rfl⟩
      · exact ⟨q, by simp [dGet, hab], h4.symm⟩
  refine ⟨?_, ?_, ?_, ?_⟩ <;> exact key _ _ _ _ _ (by decide +kernel) (by decide +kernel) (by decide +kernel) (by decide +kernel) (by decide +kernel)

/-- … and their sums are the sums of the whole table -/
example : groupbyG (fun x => x) accName 2 [("region", [[.str "n", .str "s"], [.str "n"]]), (accName .sum "amount", [[.float 5, .float 7], [.float 9]])] ["region"] [(accName .sum "amount", .sum)] =
    .ok [("region", [[.str "n", .str "s"]]), (accName .sum (accName .sum "amount"), [[.float 14, .float 7]])] := by decide +kernel

end Tablite
