import Verif.Props.GroupCut
import Verif.Props.GroupSorted
import Verif.Props.TableObj
import Verif.Props.Script
/-!
# C133: grouping a table that was built step by step

`add_rows` ends the last page of every column and begins a new one; a column that is assigned later is cut into full pages.  So a table made of lists and extended by rows can be grouped; a table extended by
rows and then by a column loses rows in a group-by.
-/

namespace Tablite

section
variable {ν α : Type} [DecidableEq ν]

/-- the columns are different objects, cut into pages at the same places, with no empty page -/
def Grown (h : Heap α) (t : OTbl ν) (L : List Nat) : Prop := OWF h t ∧ (∀ c ∈ view h t, c.2.map List.length = L) ∧ Solid (view h t)

/-- setting new columns: different objects -/
theorem tSetAll_owf (ps : Nat) (l : List (ν × List α)) (s : Heap α × OTbl ν) (hn : ((s.2.map (·.1)) ++ l.map (·.1)).Nodup) (hs : OWF s.1 s.2) (r : Heap α × OTbl ν)
    (h : tSetAll ps s (l.map fun x => (x.1, SetVal.values x.2)) = .ok r) : OWF r.1 r.2 := by
  induction l generalizing s with
  | nil =>
    injection h with h
    subst h
    exact hs
  | cons x t ih =>
    have hx : x.1 ∉ s.2.map (·.1) := by
      intro hm
      rw [List.nodup_append] at hn
      exact hn.2.2 _ hm x.1 (by simp) rfl
    have e : dSet x.1 s.1.length s.2 = s.2 ++ [(x.1, s.1.length)] := keys_dSet _ _ _ hx
    rw [List.map_cons, tSetAll, tSet] at h
    dsimp only [Except.bind] at h
    rw [e] at h
    refine ih (s.1 ++ [extend ps [] x.2], s.2 ++ [(x.1, s.1.length)]) (by simpa [List.nodup_append] using hn) ⟨?_, ?_, ?_⟩ h
    · rw [List.map_append, List.nodup_append]
      refine ⟨hs.1, by simp, ?_⟩
      intro a ha b hb
      simp only [List.map_cons, List.map_nil, List.mem_singleton] at hb
      rintro rfl
      exact hx (hb ▸ ha)
    · unfold objs
      rw [List.map_append, List.nodup_append]
      refine ⟨hs.2.1, by simp, ?_⟩
      intro a ha b hb
      simp only [List.map_cons, List.map_nil, List.mem_singleton] at hb
      have := hs.2.2 a ha
      omega
    · intro i hi
      simp only [objs, List.map_append, List.mem_append, List.map_cons, List.map_nil, List.mem_singleton] at hi
      simp only [List.length_append, List.length_singleton]
      rcases hi with hi | hi
      · have := hs.2.2 i hi; omega
      · omega

/-- extending every column by the same number of values -/
theorem Grown.extend {h : Heap α} {t : OTbl ν} {L : List Nat} (hg : Grown h t L) (ps : Nat) (hps : 0 < ps) (d : List (ν × List α)) (hd : (d.map (·.1)).Nodup) (hs : ∀ x ∈ d, x.1 ∈ t.map (·.1))
    (m : Nat) (hm : ∀ x ∈ t.map (·.1), ∃ l, dGet x d = some l ∧ l.length = m) : ∃ h', extendAll ps t h d = (h', none) ∧ Grown h' t (L ++ layoutOf ps m) := by
  obtain ⟨hw, hL, hsol⟩ := hg
  obtain ⟨h', e, hl, hc, -⟩ := extendAll_ok ps t d h hw hd hs
  have hcol : ∀ c ∈ view h' t, ∃ p l, (c.1, p) ∈ view h t ∧ l.length = m ∧ c.2 = Tablite.extend ps p l := by
    intro c hcm
    unfold view at hcm
    obtain ⟨b, hb, rfl⟩ := List.mem_map.1 hcm
    obtain ⟨l, hl1, hl2⟩ := hm b.1 (List.mem_map.2 ⟨b, hb, rfl⟩)
    refine ⟨colAt h b.2, l, List.mem_map.2 ⟨b, hb, rfl⟩, hl2, ?_⟩
    dsimp only
    rw [hc b hb, hl1]
    rfl
  refine ⟨h', e, ⟨hw.1, hw.2.1, fun i hi => by rw [hl]; exact hw.2.2 i hi⟩, ?_, ?_⟩
  · intro c hcm
    obtain ⟨p, l, hp, hlm, e⟩ := hcol c hcm
    rw [e, Tablite.extend, List.map_append, hL _ hp, paginate_layout, hlm]
  · intro c hcm q hq
    obtain ⟨p, l, hp, -, e⟩ := hcol c hcm
    rw [e, Tablite.extend] at hq
    rcases List.mem_append.1 hq with hq | hq
    · exact hsol _ hp q hq
    · exact paginate_solid hps l q hq

/-- a call of `add_rows`, whether it raises or not -/
theorem Grown.addRows {h : Heap α} {t : OTbl ν} {L : List Nat} (hg : Grown h t L) (ps : Nat) (hps : 0 < ps) (asVal : List α → α) (asArg : RowArg ν α → α) (c : AddCall ν α) (hc : c.WF asArg)
    (hk : KwComplete asVal (t.map (·.1)) c.kwargs) : ∃ L', Grown (tAddRows ps asVal asArg h t c).1 t L' := by
  have key : ∀ h' L', Grown h' t L' → ∃ L'', Grown (extendAll ps t h' (kwLists asVal c.kwargs)).1 t L'' := by
    intro h' L' hg'
    rcases hk with hk | ⟨hk1, m, hk2⟩
    · rw [hk]
      exact ⟨L', by simpa [kwLists, extendAll] using hg'⟩
    · have hkeys : (kwLists asVal c.kwargs).map (·.1) = c.kwargs.map (·.1) := by
        rw [kwLists]; split <;> simp [Function.comp_def]
      obtain ⟨h'', e, hg''⟩ := hg'.extend ps hps (kwLists asVal c.kwargs) (by rw [hkeys]; exact hc.2) (by
        intro x hx
        have : x.1 ∈ c.kwargs.map (·.1) := by rw [← hkeys]; exact List.mem_map.2 ⟨x, hx, rfl⟩
        obtain ⟨y, hy, e⟩ := List.mem_map.1 this
        rw [← e]
        exact hk1 y hy) m hk2
      rw [e]
      exact ⟨_, hg''⟩
  by_cases hne : c.args = []
  · have e : addArgs ps asArg h t c.args = (h, none) := by rw [hne]; rfl
    rw [tAddRows, e]
    exact key h L hg
  · by_cases hf : ∀ a ∈ callRows asArg c.args, a.FitsIn (t.map (·.1))
    · have hn := hg.1.1
      have e := rowArgs_ok (t.map (·.1)) hn (callRows asArg c.args) hc.1 hf (fun _ => [])
      rw [List.map_map] at e
      obtain ⟨h', e', hg'⟩ := hg.extend ps hps
        ((t.map (·.1)).map fun x => (x, [] ++ (callRows asArg c.args).flatMap fun a => (dGet x (a.pairs (t.map (·.1)))).toList))
        (by rw [List.map_map]; simpa [Function.comp_def] using hn) (by
          intro x hx
          obtain ⟨y, hy, rfl⟩ := List.mem_map.1 hx
          exact hy) (callRows asArg c.args).length (by
          intro x hx
          refine ⟨_, by rw [dGet_map, if_pos hx], ?_⟩
          rw [List.nil_append]
          have hone : ∀ rows : List (RowArg ν α), (∀ a ∈ rows, a.WF) → (∀ a ∈ rows, a.FitsIn (t.map (·.1))) →
              (rows.flatMap fun a => (dGet x (a.pairs (t.map (·.1)))).toList).length = rows.length := by
            intro rows
            induction rows with
            | nil => intro _ _; rfl
            | cons a l ih =>
              intro h1 h2
              obtain ⟨-, -, h3⟩ := pairs_keys _ hn a (h1 a (by simp)) (h2 a (by simp))
              obtain ⟨h4, h5⟩ := h3 x hx
              obtain ⟨v, hv⟩ := Option.isSome_iff_exists.1 h5
              rw [List.flatMap_cons, List.length_append, ih (fun a h => h1 a (by simp [h])) (fun a h => h2 a (by simp [h])), h4, hv]
              simp
              omega
          exact hone _ hc.1 hf)
      have e2 : addArgs ps asArg h t c.args = (h', none) := by
        rw [addArgs, if_neg (by simpa using hne)]
        have e2 : rowArgs (t.map (·.1)) (t.map fun c => (c.1, [])) (callRows asArg c.args) = _ := e
        rw [e2]
        exact e'
      rw [tAddRows, e2]
      exact key h' _ hg'
    · obtain ⟨e, he⟩ := C71_args_error ps asArg h t hg.1 c.args hc.1 hf
      rw [tAddRows, he]
      exact ⟨L, hg⟩

/-- the objects after calls of `add_rows`, one after the other -/
def addCalls (ps : Nat) (asVal : List α → α) (asArg : RowArg ν α → α) (t : OTbl ν) (h : Heap α) (calls : List (AddCall ν α)) : Heap α :=
  calls.foldl (fun h c => (tAddRows ps asVal asArg h t c).1) h

theorem Grown.calls {h : Heap α} {t : OTbl ν} {L : List Nat} (hg : Grown h t L) (ps : Nat) (hps : 0 < ps) (asVal : List α → α) (asArg : RowArg ν α → α) (calls : List (AddCall ν α))
    (hc : ∀ c ∈ calls, c.WF asArg ∧ KwComplete asVal (t.map (·.1)) c.kwargs) : ∃ L', Grown (addCalls ps asVal asArg t h calls) t L' := by
  induction calls generalizing h L with
  | nil => exact ⟨L, hg⟩
  | cons c calls ih =>
    obtain ⟨L', hg'⟩ := hg.addRows ps hps asVal asArg c (hc c (by simp)).1 (hc c (by simp)).2
    exact ih hg' fun c' h' => hc c' (by simp [h'])

omit [DecidableEq ν] in
theorem names_heap (h : Heap α) (t : OTbl ν) : (view h t).map (·.1) = t.map (·.1) := by simp [view, Function.comp_def]

/-- the table of a constructor call with lists of the same length -/
theorem tInit_grown (ps : Nat) (hps : 0 < ps) (h : Heap α) (cols : List (ν × List α)) (n : Nat) (hn : (cols.map (·.1)).Nodup) (hlen : ∀ c ∈ cols, c.2.length = n) :
    ∃ r, tInit ps h (cols.map fun x => (x.1, SetVal.values x.2)) [] [] = .ok r ∧ r.2.map (·.1) = cols.map (·.1) ∧ Grown r.1 r.2 (layoutOf ps n) := by
  obtain ⟨r, h1, -, h3⟩ := tSetAll_values ps cols (h, []) (by simpa using hn) (by simp [objs])
  have h4 : view r.1 r.2 = cols.map fun x => (x.1, extend ps [] x.2) := by rw [h3]; simp [view]
  refine ⟨r, ?_, ?_, tSetAll_owf ps cols (h, []) (by simpa using hn) ⟨by simp, by simp [objs], by simp [objs]⟩ r h1, ?_, ?_⟩
  · rw [tInit, if_neg (by simp), initCols, if_neg (by simp)]
    exact h1
  · rw [← names_heap r.1, h4, List.map_map]
    rfl
  · rw [h4]
    intro c hc
    obtain ⟨x, hx, rfl⟩ := List.mem_map.1 hc
    dsimp only
    rw [extend, List.nil_append, paginate_layout, hlen x hx]
  · rw [h4]
    intro c hc p hp
    obtain ⟨x, hx, rfl⟩ := List.mem_map.1 hc
    exact paginate_solid hps x.2 p hp

/-- group-by of a table cut at the same places -/
theorem Grown.groups [DecidableEq α] {φ σ : Type} {h : Heap α} {t : OTbl ν} {L : List Nat} (hg : Grown h t L) (nul : α) (init : φ → σ) (upd : φ → σ → α → Except Err σ) (val : φ → σ → Except Err α) (nm : φ → ν → ν)
    (ps : Nat) (hps : 0 < ps) (keys : List ν) (functions : List (ν × φ)) (hin : ∀ a ∈ keys ++ functions.map (·.1), a ∈ t.map (·.1)) (hsome : keys.length + functions.length ≠ 0)
    (hnd : (keys ++ functions.map fun f => nm f.2 f.1).Nodup) : Rect (view h t) L.sum ∧ GroupsOk nul init upd val nm ps (view h t) L.sum keys functions := by
  refine ⟨?_, C33_partial nul init upd val nm ps hps (view h t) L keys functions ?_ hsome hnd⟩
  · intro c hc
    rw [colLen_eq, List.length_flatten, hg.2.1 c hc]
  · intro a ha
    obtain ⟨p, e⟩ := Option.isSome_iff_exists.1 ((dGet_isSome a (view h t)).2 (by rw [names_heap]; exact hin a ha))
    exact ⟨p, e, hg.2.1 _ (dGet_some_mem _ _ _ e)⟩

/-- **C133** partial: a table made of lists of the same length, then extended by any number of calls of `add_rows` (each with complete rows, or with keyword arguments for all columns; calls that raise leave the
table as it was), is grouped without losing a row.  Missing: columns assigned after rows were added (`C133_fails`, `C133_exact`). -/
theorem C133_partial [DecidableEq α] {φ σ : Type} (nul : α) (init : φ → σ) (upd : φ → σ → α → Except Err σ) (val : φ → σ → Except Err α) (nm : φ → ν → ν) (ps : Nat) (hps : 0 < ps) (asVal : List α → α)
    (asArg : RowArg ν α → α) (h : Heap α) (cols : List (ν × List α)) (n : Nat) (hn : (cols.map (·.1)).Nodup) (hlen : ∀ c ∈ cols, c.2.length = n) (calls : List (AddCall ν α))
    (hc : ∀ c ∈ calls, c.WF asArg ∧ KwComplete asVal (cols.map (·.1)) c.kwargs) :
    ∃ r, tInit ps h (cols.map fun x => (x.1, SetVal.values x.2)) [] [] = .ok r ∧ ∃ m, ∀ (keys : List ν) (functions : List (ν × φ)), (∀ a ∈ keys ++ functions.map (·.1), a ∈ cols.map (·.1)) →
      keys.length + functions.length ≠ 0 → (keys ++ functions.map fun f => nm f.2 f.1).Nodup →
        Rect (view (addCalls ps asVal asArg r.2 r.1 calls) r.2) m ∧ GroupsOk nul init upd val nm ps (view (addCalls ps asVal asArg r.2 r.1 calls) r.2) m keys functions := by
  obtain ⟨r, h1, h2, h3⟩ := tInit_grown ps hps h cols n hn hlen
  obtain ⟨L, hg⟩ := h3.calls ps hps asVal asArg calls (by rw [h2]; exact hc)
  exact ⟨r, h1, L.sum, fun keys functions hin hsome hnd => hg.groups nul init upd val nm ps hps keys functions (by rw [h2]; exact hin) hsome hnd⟩

end

/-! ## a column assigned later -/

theorem min_sum_eq : ∀ (A B : List Nat), (∀ a ∈ A, 0 < a) → (∀ b ∈ B, 0 < b) → A.sum = B.sum → ((List.zipWith min A B).sum = A.sum ↔ A = B)
  | [], [], _, _, _ => by simp
  | [], b :: B, _, hB, h => by
    have := hB b (by simp)
    simp only [List.sum_nil, List.sum_cons] at h
    omega
  | a :: A, [], hA, _, h => by
    have := hA a (by simp)
    simp only [List.sum_nil, List.sum_cons] at h
    omega
  | a :: A, b :: B, hA, hB, h => by
    have hle : ∀ (A B : List Nat), (List.zipWith min A B).sum ≤ A.sum ∧ (List.zipWith min A B).sum ≤ B.sum := by
      intro A
      induction A with
      | nil => intro B; simp
      | cons a A ih =>
        intro B
        cases B with
        | nil => simp
        | cons b B =>
          have := ih B
          simp only [List.zipWith_cons_cons, List.sum_cons]
          omega
    have h1 := hle A B
    simp only [List.zipWith_cons_cons, List.sum_cons] at h ⊢
    constructor
    · intro e
      have hab : a = b := by omega
      subst hab
      have := (min_sum_eq A B (fun x hx => hA x (by simp [hx])) (fun x hx => hB x (by simp [hx])) (by omega)).1 (by omega)
      rw [this]
    · intro e
      injection e with e1 e2
      subst e1
      subst e2
      have : ∀ l : List Nat, List.zipWith min l l = l := by
        intro l
        induction l with
        | nil => rfl
        | cons x l ih => simp
      rw [this]
      omega

section
variable {ν : Type} [DecidableEq ν]

theorem cutLayout_two {β : Type} (p q : Pages β) : cutLayout [p, q] = List.zipWith min (p.map List.length) (q.map List.length) := by
  unfold cutLayout
  apply List.ext_getElem
  · simp [minLen]
  · intro i h1 h2
    have hi : i < min p.length q.length := by simpa [minLen] using h1
    have hp : i < p.length := by omega
    have hq : i < q.length := by omega
    simp [minLen, List.getElem?_eq_getElem hp, List.getElem?_eq_getElem hq]

/-- **C133** (exact): a new column of as many values as there are rows is assigned to a table built as in `C133_partial`.  Counting its rows by an old column is right exactly when the old columns are cut into full
pages, as the new one. -/
theorem C133_exact (sqrt : Rat → Rat) (nm : Acc → ν → ν) (ps : Nat) (hps : 0 < ps) (h : Heap GVal) (t : OTbl ν) (L : List Nat) (hg : Grown h t L) (x k : ν) (hx : x ∈ t.map (·.1)) (hk : k ∉ t.map (·.1))
    (l : List GVal) (hl : l.length = L.sum) (hnm : x ≠ nm .count k) :
    ∃ s, tSet ps (h, t) k (.values l) = .ok s ∧ Rect (view s.1 s.2) L.sum ∧
      (GroupsOk .none accInit accUpdate (accValue sqrt) nm ps (view s.1 s.2) L.sum [x] [(k, .count)] ↔ L = layoutOf ps L.sum) := by
  refine ⟨_, rfl, ?_⟩
  rw [keys_dSet _ _ _ hk]
  have hview : view (h ++ [extend ps [] l]) (t ++ [(k, h.length)]) = view h t ++ [(k, paginate ps l)] := by
    unfold view
    rw [List.map_append]
    congr 1
    · apply List.map_congr_left
      intro c hc
      rw [colAt_append _ _ _ (hg.1.2.2 _ (List.mem_map.2 ⟨c, hc, rfl⟩))]
    · simp [colAt, extend]
  dsimp only
  rw [hview]
  have hrect : Rect (view h t ++ [(k, paginate ps l)]) L.sum := by
    intro c hc
    rcases List.mem_append.1 hc with hc | hc
    · rw [colLen_eq, List.length_flatten, hg.2.1 c hc]
    · rw [List.mem_singleton.1 hc, colLen_eq, paginate_flatten hps, hl]
  refine ⟨hrect, ?_⟩
  have hxk : x ≠ k := fun e => hk (e ▸ hx)
  rw [C33_exact sqrt nm ps hps _ L.sum hrect [x] k (by
    intro a ha
    rw [List.map_append, names_heap]
    simp only [List.cons_append, List.nil_append, List.mem_cons, List.not_mem_nil, or_false] at ha
    rcases ha with rfl | rfl
    · exact List.mem_append_left _ hx
    · simp) (by simpa using hnm)]
  obtain ⟨p, hp⟩ := Option.isSome_iff_exists.1 ((dGet_isSome x (view h t)).2 (by rw [names_heap]; exact hx))
  have hpL := hg.2.1 _ (dGet_some_mem _ _ _ hp)
  have hused : usedCols (view h t ++ [(k, paginate ps l)]) [x] [(k, Acc.count)] = [p, paginate ps l] := by
    have h1 : dGet x (view h t ++ [(k, paginate ps l)]) = some p := by
      rw [dGet_app, hp]
      rfl
    have h2 : dGet k (view h t ++ [(k, paginate ps l)]) = some (paginate ps l) := by
      rw [dGet_app, (dGet_none k (view h t)).2 (by rw [names_heap]; exact hk)]
      simp [dGet]
    have hnn : neededNames [x] [(k, Acc.count)] = [x, k] := by simp [neededNames, Ne.symm hxk]
    unfold usedCols
    rw [hnn]
    simp [h1, h2]
  unfold cutRows
  rw [hused, cutLayout_two, hpL, paginate_layout, hl]
  have hs : (layoutOf ps L.sum).sum = L.sum := by
    rw [← hl, ← paginate_layout, ← List.length_flatten, paginate_flatten hps]
  have hLpos : ∀ a ∈ L, 0 < a := by
    rw [← hpL]
    intro a ha
    obtain ⟨q, hq, rfl⟩ := List.mem_map.1 ha
    exact List.length_pos_of_ne_nil (hg.2.2 _ (dGet_some_mem _ _ _ hp) q hq)
  exact min_sum_eq L (layoutOf ps L.sum) hLpos (by
    rw [← hl, ← paginate_layout]
    intro a ha
    obtain ⟨q, hq, rfl⟩ := List.mem_map.1 ha
    exact (paginate_sizes hps l q hq).1) hs.symm

end

/-- the full claim: a table is built by assigning lists to columns and adding rows, in any order; at the end all columns have the same number of rows.  Then a group-by sees all rows. -/
def C133_statement (sqrt : Rat → Rat) : Prop :=
  ∀ (ps : Nat) (asVal : List GVal → GVal) (asArg : RowArg String GVal → GVal) (prog : List (TOp String GVal)) (n : Nat) (keys : List String) (functions : List (String × Acc)), 0 < ps →
    (∀ op ∈ prog, (∃ k l, op = .set k l) ∨ ∃ c, op = .addRows c ∧ c.WF asArg ∧ c.kwargs = []) →
    Rect (view (prog.foldl (tRun ps asVal asArg) ([], [])).1 (prog.foldl (tRun ps asVal asArg) ([], [])).2) n →
    (∀ a ∈ keys ++ functions.map (·.1), a ∈ (prog.foldl (tRun ps asVal asArg) ([], [])).2.map (·.1)) → keys.length + functions.length ≠ 0 → (keys ++ functions.map fun f => accName f.2 f.1).Nodup →
    GroupsOk .none accInit accUpdate (accValue sqrt) accName ps (view (prog.foldl (tRun ps asVal asArg) ([], [])).1 (prog.foldl (tRun ps asVal asArg) ([], [])).2) n keys functions

/-- a column of two rows, a row is added, then a second column of three rows is assigned -/
def rowThenColumn : List (TOp String GVal) := [.set "k" [.int 1, .int 2], .addRows ⟨[.inr (.int 3)], []⟩, .set "v" [.int 10, .int 20, .int 30]]

/-- what the group-by sees: the group of the added row is missing -/
theorem C133_effect (sqrt : Rat → Rat) :
    let s := rowThenColumn.foldl (tRun 10 (fun _ => .none) (fun _ => .none)) ([], [])
    view s.1 s.2 = [("k", [[.int 1, .int 2], [.int 3]]), ("v", [[.int 10, .int 20, .int 30]])] ∧
      (groupby .none accInit accUpdate (accValue sqrt) accName 10 (view s.1 s.2) ["k"] [("v", .count)]).map tview = .ok [("k", [.int 1, .int 2]), ("Count(v)", [.int 1, .int 1])] := by
  intro s
  have hv : view s.1 s.2 = [("k", [[.int 1, .int 2], [.int 3]]), ("v", [[.int 10, .int 20, .int 30]])] := by decide +kernel
  refine ⟨hv, ?_⟩
  rw [hv]
  obtain ⟨t', h1, h2⟩ := C33_effect .none accInit accUpdate (accValue sqrt) accName 10 (by omega) ([("k", [[.int 1, .int 2], [.int 3]]), ("v", [[.int 10, .int 20, .int 30]])] : Tbl String GVal) ["k"]
    [("v", Acc.count)] (by simp) (by decide) (by decide +kernel) (fun _ _ => .int 1) (by
      intro f hf k hk
      simp only [List.mem_singleton] at hf
      subst hf
      rw [aggOf_acc, C34_count, List.length_map]
      revert k
      decide +kernel)
  rw [h1]
  show Except.ok (tview t') = _
  rw [h2]
  decide +kernel

theorem C133_fails (sqrt : Rat → Rat) : ¬ C133_statement sqrt := by
  intro h
  have := h 10 (fun _ => .none) (fun _ => .none) rowThenColumn 3 ["k"] [("v", .count)] (by omega) (by
      intro op hop
      simp only [rowThenColumn, List.mem_cons, List.not_mem_nil, or_false] at hop
      rcases hop with rfl | rfl | rfl
      · exact .inl ⟨_, _, rfl⟩
      · refine .inr ⟨_, rfl, ⟨?_, by simp⟩, rfl⟩
        intro a ha
        simp [callRows] at ha
        subst ha
        trivial
      · exact .inl ⟨_, _, rfl⟩) (by unfold Rect; decide +kernel) (by decide +kernel) (by decide) (by decide +kernel)
  obtain ⟨hv, he⟩ := C133_effect sqrt
  obtain ⟨t', h1, h2⟩ := this (fun _ _ => .int 1) (by
    intro f hf k hk
    simp only [List.mem_singleton] at hf
    subst hf
    rw [aggOf_acc, C34_count, List.length_map]
    revert k
    decide +kernel)
  rw [h1] at he
  have he' : tview t' = [("k", [.int 1, .int 2]), ("Count(v)", [.int 1, .int 1])] := by injection he
  rw [he'] at h2
  revert h2
  decide +kernel

/-- rows added as lists and as a dictionary meet the conditions of `C133_partial` -/
example : (∀ c ∈ [(⟨[.inl (.seq [.int 1, .int 2]), .inl (.dict [("b", .int 3), ("a", .int 4)])], []⟩ : AddCall String GVal), ⟨[], [("a", .inl [.int 5]), ("b", .inl [.int 6])]⟩],
    c.WF (fun _ => .none) ∧ KwComplete (fun _ => .none) ["a", "b"] c.kwargs) := by
  intro c hc
  simp only [List.mem_cons, List.not_mem_nil, or_false] at hc
  rcases hc with rfl | rfl
  · refine ⟨⟨?_, by simp⟩, .inl rfl⟩
    intro a ha
    simp [callRows] at ha
    rcases ha with rfl | rfl
    · trivial
    · unfold RowArg.WF; decide
  · refine ⟨⟨by simp [callRows], by decide⟩, .inr ⟨by decide, 1, ?_⟩⟩
    intro x hx
    simp only [List.mem_cons, List.not_mem_nil, or_false] at hx
    rcases hx with rfl | rfl
    · exact ⟨[.int 5], by decide, rfl⟩
    · exact ⟨[.int 6], by decide, rfl⟩

/-- `C133_exact` on a table that was extended by a row: the layouts differ -/
example : Grown [[[GVal.int 1, .int 2], [.int 3]]] [("k", 0)] [2, 1] ∧ [2, 1] ≠ layoutOf 10 3 :=
  ⟨⟨by unfold OWF objs; decide, by decide, by unfold Solid; decide⟩, by decide⟩

end Tablite
