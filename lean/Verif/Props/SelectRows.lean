import Verif.Props.SelectExact
/-!
# C45 exactly: which rows a column selection loses
-/

namespace Tablite

set_option linter.unusedSectionVars false

section
variable {ν α : Type} [DecidableEq ν] [DecidableEq α]

/-- page `k` is looked at by a request: the column of the request has the wanted type as a whole, or its page `k` has not -/
def pageSeen (ops : SelOps α) (t : List (ν × List (SelPage α))) (reqs : List (ν × SelReq ν)) (k : Nat) : Bool :=
  reqs.any fun c => (dGet c.2.orig t).any fun pages => selCorrect ops c.2 pages || (pages[k]?).any fun p => !selAsIs c.2 p

/-- the rows on the pages that are looked at; row `j` of page `k` has for every column the value at position `j` of page `k` -/
def seenRows (ops : SelOps α) (nul : α) (t : List (ν × List (SelPage α))) (L : List Nat) (reqs : List (ν × SelReq ν)) : List (ν → α) :=
  (List.range L.length).flatMap fun k => (List.range (if pageSeen ops t reqs k then L.getD k 0 else 0)).map fun j a =>
    ((((dGet a t).map fun pages => pages.map (·.vals)).getD []).getD k []).getD j nul

/-- the two tables of a selection hold the given rows: those that pass with their converted values, the others with the reason -/
def SelectRows (ops : SelOps α) (nul : α) (rows : List (ν → α)) (t : List (ν × List (SelPage α))) (reqs : List (ν × SelReq ν)) (res : SelResult ν α) : Prop :=
  tview res.pass = reqs.map (fun c => (c.1, (rows.filter (selOk ops reqs)).map fun row => (selOut ops c.2 (row c.2.orig)).getD nul)) ∧
  tview res.fail = t.map (fun c => (c.1, (rows.filter fun row => !selOk ops reqs row).map fun row => row c.1)) ∧
  res.reasons.flatten = (rows.filter fun row => !selOk ops reqs row).map (selWhy ops reqs)

theorem flatMap_rows_gen (nul : α) (n : Nat) (M : Nat → Nat) (P : ν → Pages α) (p : (ν → α) → Bool) {β : Type} (f : (ν → α) → β) :
    ((List.range n).flatMap fun k => ((List.range (M k)).filter fun j => p fun a => ((P a).getD k []).getD j nul).map fun j =>
        f fun a => ((P a).getD k []).getD j nul) =
      (((List.range n).flatMap fun k => (List.range (M k)).map fun j a => ((P a).getD k []).getD j nul).filter p).map f := by
  rw [List.filter_flatMap, List.map_flatMap]
  congr 1
  funext k
  rw [List.filter_map, List.map_map]
  rfl

/-- a page that no request looks at gives no rows at all -/
theorem selPage_unseen (ops : SelOps α) (dflt nul : α) (step ps m : Nat) (hs : 0 < step) (hps : 0 < ps) (hm : m ≤ ps) (page : List (ν × SelPage α))
    (_hw : (page.map (·.1)).Nodup) (hlen : ∀ c ∈ page, c.2.vals.length = m) (hwf : ∀ c ∈ page, SelPageWF ops c.2) (cols : List (SelCol ν))
    (ht : ∀ c ∈ cols, c.req.type ≠ .none ∧ c.req.orig ∈ page.map (·.1))
    (hcor : ∀ c ∈ cols, c.correct = true → ∀ p, dGet c.req.orig page = some p → ∀ v ∈ p.vals, selOut ops c.req v = some v)
    (hmark : (cols.any fun c => (dGet c.req.orig page).any (selMarks c)) = false) :
    selPage ops dflt step ps cols page = .ok ⟨cols.map fun _ => none, page.map fun _ => none, []⟩ := by
  have hcs : ∀ c ∈ cols, c.req.type ≠ .none ∧ ∃ p, dGet c.req.orig page = some p ∧ SelPageWF ops p ∧ p.vals.length = m ∧
      (∀ (j : Nat) (h : j < p.vals.length), pageRow nul page j c.req.orig = p.vals[j]) ∧ (c.correct = true → ∀ v ∈ p.vals, selOut ops c.req v = some v) := by
    intro c hc
    obtain ⟨h1, h2⟩ := ht c hc
    obtain ⟨p, hp⟩ := Option.isSome_iff_exists.1 ((dGet_isSome _ page).2 h2)
    have hmem := dGet_mem _ page p hp
    refine ⟨h1, p, hp, hwf _ hmem, hlen _ hmem, fun j h => ?_, fun hco => hcor c hc hco p hp⟩
    unfold pageRow
    rw [hp]
    show p.vals.getD j nul = _
    rw [List.getD_eq_getElem?_getD, List.getElem?_eq_getElem h]
    rfl
  obtain ⟨datas, d1, d2⟩ := selColumns_ok ops dflt page ps m (pageRow nul page) hm cols hcs [] false
  have h0 : selMaskOf ops [] false m ps (pageRow nul page) = List.replicate ps (Mask.unused, none) := by
    unfold selMaskOf
    have : (List.range m).map (fun j => selState ops [] false (pageRow nul page j)) = List.replicate m (Mask.unused, none) := by
      rw [List.eq_replicate_iff]
      refine ⟨by simp, fun b hb => ?_⟩
      obtain ⟨j, _, rfl⟩ := List.mem_map.1 hb
      rfl
    rw [this, List.replicate_append_replicate]
    congr 1; omega
  rw [h0] at d1
  simp only [List.nil_append, Bool.false_or] at d1 d2
  set mk := cols.any fun c => (dGet c.req.orig page).any (selMarks c) with hmk
  set reqs := cols.map selPair with hreqs
  set row := pageRow nul page with hrow
  have hsk : ∀ j < m, selState ops reqs mk (row j) = (Mask.unused, none) := by
    intro j hj
    have hno : selOk ops reqs (row j) = true := by
      unfold selOk
      rw [List.all_eq_true]
      intro x hx
      obtain ⟨c, hc, rfl⟩ := List.mem_map.1 hx
      obtain ⟨h1, p, h2, h3, h4, h5, h6⟩ := hcs c hc
      rw [List.any_eq_false] at hmark
      have h7 := hmark c hc
      rw [h2] at h7
      simp only [Option.any_some, selMarks, Bool.not_eq_true, Bool.or_eq_false_iff, Bool.not_eq_false'] at h7
      have h8 := selAsIs_out ops c.req p h3 h7.2 (row j c.req.orig) (by
        rw [h5 j (by omega)]; exact List.getElem_mem _)
      show (selOut ops c.req (row j c.req.orig)).isSome = true
      rw [h8]; rfl
    unfold selState
    rw [if_pos hno, hmark]
    rfl
  have hall : selMaskOf ops reqs mk m ps row = List.replicate ps (Mask.unused, none) := by
    unfold selMaskOf
    have : (List.range m).map (fun j => selState ops reqs mk (row j)) = List.replicate m (Mask.unused, none) := by
      rw [List.eq_replicate_iff]
      refine ⟨by simp, fun b hb => ?_⟩
      obtain ⟨j, hj, rfl⟩ := List.mem_map.1 hb
      exact hsk j (List.mem_range.1 hj)
    rw [this, List.replicate_append_replicate]
    congr 1; omega
  have hdl : datas.length = cols.length := d2.length_eq.symm
  unfold selPage
  rw [d1, hall]
  dsimp only [Except.bind]
  have hse : unusedSearch step ((List.replicate ps (Mask.unused, (none : Option (SelReason ν α)))).map (·.1)) = .ok 0 := by
    rw [List.map_replicate]
    exact unusedSearch_eq step hs [] (by simp) ps (by simpa using hps)
  rw [hse]
  simp only [List.take_zero, List.zipIdx_nil, List.filter_nil, List.map_nil]
  have hfin : ∀ ds : List (List α), selFinalize [] ds = .ok (ds.map fun _ => none) := by
    intro ds
    unfold selFinalize
    rw [if_pos rfl]
  rw [hfin, hfin]
  dsimp only
  congr 2
  · rw [List.map_const', List.map_const', hdl]
  · rw [List.map_map]; rfl

theorem flatMap_congr_mem {β γ : Type} (l : List β) (f g : β → List γ) (h : ∀ x ∈ l, f x = g x) : l.flatMap f = l.flatMap g := by
  rw [List.flatMap_def, List.flatMap_def, List.map_congr_left h]

theorem any_congr_mem {β : Type} (l : List β) (f g : β → Bool) (h : ∀ x ∈ l, f x = g x) : l.any f = l.any g := by
  induction l with
  | nil => rfl
  | cons a l ih => rw [List.any_cons, List.any_cons, h a List.mem_cons_self, ih fun x hx => h x (List.mem_cons_of_mem _ hx)]

/-- what a selection with at least one request does with a proper table: the rows of the pages that no request looks at are lost -/
theorem columnSelectNamed_effect (ops : SelOps α) (dflt nul : α) (step ps : Nat) (hs : 0 < step) (hps : 0 < ps) (t : List (ν × List (SelPage α))) (L : List Nat)
    (htab : SelTable ops ps t L) (reqs : List (ν × SelReq ν)) (hreq : ∀ c ∈ reqs, c.2.type ≠ .none ∧ c.2.orig ∈ t.map (·.1)) (hne : reqs ≠ []) :
    ∃ res, columnSelectNamed ops dflt step ps t reqs = .ok res ∧ SelectRows ops nul (seenRows ops nul t L reqs) t reqs res := by
  have hlay : ∀ c ∈ t, selLayout c = (L.sum, L.length) := by
    intro c hc
    unfold selLayout
    rw [htab.lens c hc]
    congr 1
    rw [← htab.lens c hc, List.length_map]
  -- the pages of a requested column
  have hpg : ∀ c ∈ reqs, ∃ pages, dGet c.2.orig t = some pages ∧ (c.2.orig, pages) ∈ t := by
    intro c hc
    obtain ⟨pages, hp⟩ := Option.isSome_iff_exists.1 ((dGet_isSome _ t).2 (hreq c hc).2)
    exact ⟨pages, hp, dGet_mem _ t pages hp⟩
  have hcols : reqs.mapM (selCol ops t) = .ok (reqs.map fun c => ⟨c.1, c.2, selCorrect ops c.2 ((dGet c.2.orig t).getD [])⟩) := by
    apply mapM_ok
    intro c hc
    obtain ⟨pages, hp, _⟩ := hpg c hc
    unfold selCol
    rw [hp]
    rfl
  set cols : List (SelCol ν) := reqs.map fun c => ⟨c.1, c.2, selCorrect ops c.2 ((dGet c.2.orig t).getD [])⟩ with hcdef
  have hpair : cols.map selPair = reqs := by
    rw [hcdef, List.map_map]
    conv_rhs => rw [← List.map_id reqs]
    rfl
  -- the rows
  set P : ν → Pages α := fun a => ((dGet a t).map fun pages => pages.map (·.vals)).getD [] with hPdef
  have hP : ∀ a, (P a).map List.length = L ∨ P a = [] := by
    intro a
    cases hd : dGet a t with
    | none => right; simp [hPdef, hd]
    | some pages =>
      left
      have := htab.lens _ (dGet_mem a t pages hd)
      simp only [hPdef, hd, Option.map_some, Option.getD_some, List.map_map]
      exact this
  have hrows : selRows nul (selVals t) L.sum = (List.range L.length).flatMap fun k => (List.range (L.getD k 0)).map fun j a => ((P a).getD k []).getD j nul := by
    rw [← rows_by_page nul L P hP]
    unfold selRows
    apply List.map_congr_left
    intro i _
    funext a
    unfold cell selVals
    rw [dGet_map_val]
    simp only [hPdef]
    cases dGet a t with
    | none => rfl
    | some pages => simp only [Option.map_some, Option.elim, Option.getD_some, colIter_eq]
  have hout : ∀ c ∈ reqs, ∀ pages, dGet c.2.orig t = some pages → selCorrect ops c.2 pages = true → ∀ p ∈ pages, ∀ v ∈ p.vals, selOut ops c.2 v = some v := by
    intro c hc pages hp hco p hpp v hv
    exact selCorrect_out ops c.2 pages (htab.wf _ (dGet_mem _ t pages hp)) hco p hpp v hv
  unfold columnSelectNamed
  cases ht : t with
  | nil => exact absurd ht htab.nonempty
  | cons c0 t0 =>
    rw [← ht]
    have hm : t.map selLayout = (L.sum, L.length) :: t0.map selLayout := by
      rw [ht, List.map_cons, hlay c0 (by rw [ht]; exact List.mem_cons_self)]
    rw [hm]
    dsimp only
    rw [if_neg (by
      rintro ⟨x, hx, hne⟩
      obtain ⟨c, hc, rfl⟩ := List.mem_map.1 hx
      exact hne (hlay c (by rw [ht]; exact List.mem_cons_of_mem _ hc))), hcols]
    dsimp only [Except.bind]
    split_ifs with hall
    · -- all columns have the wanted types
      have hsn : ∀ k, pageSeen ops t reqs k = true := by
        intro k
        obtain ⟨c, hc⟩ := List.exists_mem_of_ne_nil reqs hne
        obtain ⟨pages, hp, -⟩ := hpg c hc
        unfold pageSeen
        rw [List.any_eq_true]
        refine ⟨c, hc, ?_⟩
        rw [List.all_eq_true] at hall
        have := hall ⟨c.1, c.2, selCorrect ops c.2 ((dGet c.2.orig t).getD [])⟩ (List.mem_map.2 ⟨c, hc, rfl⟩)
        rw [hp] at this ⊢
        simp only [Option.getD_some] at this
        simp [this]
      have hsr : seenRows ops nul t L reqs = selRows nul (selVals t) L.sum := by
        rw [hrows]
        unfold seenRows
        simp only [hsn, if_true]
        rfl
      rw [hsr]
      have hallok : ∀ row ∈ selRows nul (selVals t) L.sum, ∀ c ∈ reqs, selOut ops c.2 (row c.2.orig) = some (row c.2.orig) := by
        intro row hrow c hc
        rw [hrows, List.mem_flatMap] at hrow
        obtain ⟨k, hk, hrow⟩ := hrow
        obtain ⟨j, hj, rfl⟩ := List.mem_map.1 hrow
        rw [List.mem_range] at hk hj
        obtain ⟨pages, hp, hmem⟩ := hpg c hc
        have hco : selCorrect ops c.2 pages = true := by
          rw [List.all_eq_true] at hall
          have := hall ⟨c.1, c.2, selCorrect ops c.2 ((dGet c.2.orig t).getD [])⟩ (List.mem_map.2 ⟨c, hc, rfl⟩)
          simpa [hp] using this
        have hl := htab.lens _ hmem
        simp only at hl
        have hkl : k < pages.length := by rw [← hl, List.length_map] at hk; exact hk
        have hjl : j < pages[k].vals.length := by
          have : L.getD k 0 = pages[k].vals.length := by
            rw [← hl, List.getD_eq_getElem?_getD, List.getElem?_map, List.getElem?_eq_getElem hkl]; rfl
          omega
        have e : ((P c.2.orig).getD k []).getD j nul = pages[k].vals[j] := by
          simp only [hPdef, hp, Option.map_some, Option.getD_some, List.getD_eq_getElem?_getD, List.getElem?_map, List.getElem?_eq_getElem hkl,
            List.getElem?_eq_getElem hjl]
        show selOut ops c.2 (((P c.2.orig).getD k []).getD j nul) = some (((P c.2.orig).getD k []).getD j nul)
        rw [e]
        exact hout c hc pages hp hco _ (List.getElem_mem hkl) _ (List.getElem_mem hjl)
      have hok : ∀ row ∈ selRows nul (selVals t) L.sum, selOk ops reqs row = true := by
        intro row hrow
        unfold selOk
        rw [List.all_eq_true]
        intro c hc
        rw [hallok row hrow c hc]; rfl
      have hf1 : (selRows nul (selVals t) L.sum).filter (selOk ops reqs) = selRows nul (selVals t) L.sum := List.filter_eq_self.2 hok
      have hf2 : (selRows nul (selVals t) L.sum).filter (fun row => !selOk ops reqs row) = [] := by
        rw [List.filter_eq_nil_iff]
        intro row hrow
        rw [hok row hrow]; simp
      have hsh : cols.mapM (selShare t) = .ok (reqs.map fun c => (c.1, ((dGet c.2.orig t).getD []).map (·.vals))) := by
        rw [mapM_ok cols (selShare t) (fun c => (c.name, ((dGet c.req.orig t).getD []).map (·.vals)))]
        · rw [hcdef, List.map_map]; rfl
        · intro c hc
          obtain ⟨d, hd, rfl⟩ := List.mem_map.1 hc
          obtain ⟨pages, hp, _⟩ := hpg d hd
          unfold selShare
          rw [hp]
          rfl
      rw [hsh]
      refine ⟨_, rfl, ?_, ?_, ?_⟩
      · unfold tview
        rw [hf1, List.map_map]
        apply List.map_congr_left
        intro c hc
        simp only [Function.comp_apply, Prod.mk.injEq, true_and]
        obtain ⟨pages, hp, hmem⟩ := hpg c hc
        have h1 : ((selRows nul (selVals t) L.sum).map fun row => (selOut ops c.2 (row c.2.orig)).getD nul) =
            (selRows nul (selVals t) L.sum).map fun row => row c.2.orig := by
          apply List.map_congr_left
          intro row hrow
          rw [hallok row hrow c hc]; rfl
        rw [h1]
        unfold selRows
        rw [List.map_map, hp]
        simp only [Option.getD_some]
        have hlen : (colIter (pages.map (·.vals))).length = L.sum := by
          rw [colIter_eq, List.length_flatten, List.map_map, ← htab.lens _ hmem]
          rfl
        apply List.ext_getElem
        · rw [hlen]; simp
        · intro i h1 h2
          rw [List.getElem_map, List.getElem_range]
          simp only [Function.comp_apply]
          unfold cell selVals
          rw [dGet_map_val, hp]
          simp only [Option.map_some, Option.elim]
          rw [List.getD_eq_getElem?_getD, List.getElem?_eq_getElem h1]; rfl
      · unfold tview
        rw [hf2, List.map_map]
        rfl
      · rw [hf2]; rfl
    · -- page by page
      set M : Nat → Nat := fun k => if pageSeen ops t reqs k then L.getD k 0 else 0 with hM
      have hsr : seenRows ops nul t L reqs = (List.range L.length).flatMap fun k => (List.range (M k)).map fun j a => ((P a).getD k []).getD j nul := rfl
      set page : Nat → List (ν × SelPage α) := fun k => t.map fun c => (c.1, c.2.getD k ⟨none, []⟩) with hpage
      have hcl : ∀ c ∈ t, c.2.length = L.length := by
        intro c hc
        rw [← htab.lens c hc, List.length_map]
      have hrow : ∀ k < L.length, selRow t k = .ok (page k) := by
        intro k hk
        unfold selRow
        rw [mapM_ok t _ (fun c => (c.1, c.2.getD k ⟨none, []⟩))]
        intro c hc
        have : k < c.2.length := by rw [hcl c hc]; exact hk
        rw [List.getElem?_eq_getElem this, List.getD_eq_getElem?_getD, List.getElem?_eq_getElem this]
        rfl
      have hpr : ∀ k j a, pageRow nul (page k) j a = ((P a).getD k []).getD j nul := by
        intro k j a
        unfold pageRow
        simp only [hpage]
        rw [dGet_map_val (fun pages : List (SelPage α) => pages.getD k ⟨none, []⟩)]
        simp only [hPdef]
        cases dGet a t with
        | none => simp
        | some pages =>
          simp only [Option.map_some, Option.elim, Option.getD_some, List.getD_eq_getElem?_getD, List.getElem?_map]
          cases pages[k]? <;> rfl
      have hpok : ∀ k < L.length, selPage ops dflt step ps cols (page k) = .ok
          ⟨cols.map fun c => optPage (((List.range (M k)).filter fun j => selOk ops (cols.map selPair) (pageRow nul (page k) j)).map fun j =>
              (selOut ops c.req (pageRow nul (page k) j c.req.orig)).getD nul),
            (page k).map fun c => optPage (((List.range (M k)).filter fun j => !selOk ops (cols.map selPair) (pageRow nul (page k) j)).map fun j =>
              pageRow nul (page k) j c.1),
            ((List.range (M k)).filter fun j => !selOk ops (cols.map selPair) (pageRow nul (page k) j)).map fun j =>
              selWhy ops (cols.map selPair) (pageRow nul (page k) j)⟩ := by
        intro k hk
        have hgk : ∀ c ∈ t, c.2.getD k ⟨none, []⟩ ∈ c.2 := by
          intro c hc
          have : k < c.2.length := by rw [hcl c hc]; exact hk
          rw [List.getD_eq_getElem?_getD, List.getElem?_eq_getElem this]
          exact List.getElem_mem this
        have hnm : (page k).map (·.1) = t.map (·.1) := by
          simp only [hpage, List.map_map]; rfl
        have hpd : ∀ a, dGet a (page k) = (dGet a t).map fun pages => pages.getD k ⟨none, []⟩ := by
          intro a
          simp only [hpage]
          exact dGet_map_val (fun pages : List (SelPage α) => pages.getD k ⟨none, []⟩) t a
        have o1 : L.getD k 0 ≤ ps := by
          rw [List.getD_eq_getElem?_getD, List.getElem?_eq_getElem hk]
          exact htab.small _ (List.getElem_mem hk)
        have o2 : ((page k).map (·.1)).Nodup := by
          rw [hnm]; exact htab.names
        have o3 : ∀ c ∈ page k, c.2.vals.length = L.getD k 0 := by
          intro c hc
          obtain ⟨d, hd, rfl⟩ := List.mem_map.1 hc
          have : k < d.2.length := by rw [hcl d hd]; exact hk
          rw [← htab.lens d hd]
          simp only [List.getD_eq_getElem?_getD, List.getElem?_map, List.getElem?_eq_getElem this]
          rfl
        have o4 : ∀ c ∈ page k, SelPageWF ops c.2 := by
          intro c hc
          obtain ⟨d, hd, rfl⟩ := List.mem_map.1 hc
          exact htab.wf d hd _ (hgk d hd)
        have o5 : ∀ c ∈ cols, c.req.type ≠ .none ∧ c.req.orig ∈ (page k).map (·.1) := by
          intro c hc
          obtain ⟨d, hd, rfl⟩ := List.mem_map.1 hc
          rw [hnm]
          exact hreq d hd
        have o6 : ∀ c ∈ cols, c.correct = true → ∀ p, dGet c.req.orig (page k) = some p → ∀ v ∈ p.vals, selOut ops c.req v = some v := by
          intro c hc hco p hp v hv
          obtain ⟨d, hd, rfl⟩ := List.mem_map.1 hc
          obtain ⟨pages, hpgs, hmem⟩ := hpg d hd
          rw [hpd, hpgs] at hp
          simp only [Option.map_some, Option.some.injEq] at hp
          simp only [hpgs, Option.getD_some] at hco
          refine hout d hd pages hpgs hco p ?_ v hv
          rw [← hp]
          exact hgk _ hmem
        have hmk : (cols.any fun c => (dGet c.req.orig (page k)).any (selMarks c)) = pageSeen ops t reqs k := by
          unfold pageSeen
          rw [hcdef, List.any_map]
          apply any_congr_mem
          intro c hc
          obtain ⟨pages, hp, hmem⟩ := hpg c hc
          have hkl : k < pages.length := by rw [hcl _ hmem]; exact hk
          simp only [Function.comp_apply, hpd, hp, Option.map_some, Option.any_some, selMarks, Option.getD_some, List.getD_eq_getElem?_getD,
            List.getElem?_eq_getElem hkl]
        by_cases hb : pageSeen ops t reqs k = true
        · rw [hM]
          simp only [hb, if_true]
          exact selPage_ok ops dflt nul step ps (L.getD k 0) hs hps o1 (page k) o2 o3 o4 cols o5 o6 (.inr (hmk.trans hb))
        · have hb' : pageSeen ops t reqs k = false := by simpa using hb
          rw [hM]
          simp only [hb', Bool.false_eq_true, if_false, List.range_zero, List.filter_nil, List.map_nil]
          exact selPage_unseen ops dflt nul step ps (L.getD k 0) hs hps o1 (page k) o2 o3 o4 cols o5 o6 (hmk.trans hb')
      have houts : (List.range L.length).mapM (fun k => (selRow t k).bind (selPage ops dflt step ps cols)) = .ok ((List.range L.length).map fun k =>
          ⟨cols.map fun c => optPage (((List.range (M k)).filter fun j => selOk ops (cols.map selPair) (pageRow nul (page k) j)).map fun j =>
              (selOut ops c.req (pageRow nul (page k) j c.req.orig)).getD nul),
            (page k).map fun c => optPage (((List.range (M k)).filter fun j => !selOk ops (cols.map selPair) (pageRow nul (page k) j)).map fun j =>
              pageRow nul (page k) j c.1),
            ((List.range (M k)).filter fun j => !selOk ops (cols.map selPair) (pageRow nul (page k) j)).map fun j =>
              selWhy ops (cols.map selPair) (pageRow nul (page k) j)⟩) := by
        apply mapM_ok
        intro k hk
        rw [List.mem_range] at hk
        rw [hrow k hk]
        exact hpok k hk
      have hfe : ∀ k j, pageRow nul (page k) j = fun a => ((P a).getD k []).getD j nul := fun k j => funext (hpr k j)
      simp only [hfe, hpair] at houts
      dsimp only [Except.bind] at houts
      rw [houts]
      refine ⟨_, rfl, ?_, ?_, ?_⟩
      · rw [hsr]
        unfold tview
        rw [List.map_map]
        have hr : reqs = cols.map selPair := hpair.symm
        conv_rhs => rw [hr, List.map_map]
        apply zipIdx_map_eq
        intro i hi
        simp only [Function.comp_apply, List.map_map]
        congr 1
        rw [colIter_eq, hpair]
        rw [← flatMap_rows_gen nul L.length M P (selOk ops reqs) fun row => (selOut ops (selPair cols[i]).2 (row (selPair cols[i]).2.orig)).getD nul]
        apply selGather_flatten
        intro k _
        simp only [Function.comp_apply]
        rw [List.getElem?_map, List.getElem?_eq_getElem hi]
        rfl
      · rw [hsr]
        unfold tview
        rw [List.map_map]
        apply zipIdx_map_eq
        intro i hi
        simp only [Function.comp_apply, List.map_map]
        congr 1
        rw [colIter_eq]
        rw [← flatMap_rows_gen nul L.length M P (fun row => !selOk ops reqs row) fun row => row t[i].1]
        apply selGather_flatten
        intro k _
        simp only [Function.comp_apply, hpage, List.map_map]
        rw [List.getElem?_map, List.getElem?_eq_getElem hi]
        rfl
      · rw [hsr]
        dsimp only
        rw [List.map_map, filter_ne_nil_flatten, ← List.flatMap_def, ← flatMap_rows_gen nul L.length M P (fun row => !selOk ops reqs row) (selWhy ops reqs)]
        rfl

/-- when every page with rows is looked at these are all rows of the table -/
theorem seenRows_all (ops : SelOps α) (nul : α) (ps : Nat) (t : List (ν × List (SelPage α))) (L : List Nat) (htab : SelTable ops ps t L) (reqs : List (ν × SelReq ν))
    (h : ∀ k < L.length, L.getD k 0 = 0 ∨ pageSeen ops t reqs k = true) : seenRows ops nul t L reqs = selRows nul (selVals t) L.sum := by
  set P : ν → Pages α := fun a => ((dGet a t).map fun pages => pages.map (·.vals)).getD [] with hPdef
  have hP : ∀ a, (P a).map List.length = L ∨ P a = [] := by
    intro a
    cases hd : dGet a t with
    | none => right; simp [hPdef, hd]
    | some pages =>
      left
      have := htab.lens _ (dGet_mem a t pages hd)
      simp only [hPdef, hd, Option.map_some, Option.getD_some, List.map_map]
      exact this
  have hrows : selRows nul (selVals t) L.sum = (List.range L.length).flatMap fun k => (List.range (L.getD k 0)).map fun j a => ((P a).getD k []).getD j nul := by
    rw [← rows_by_page nul L P hP]
    unfold selRows
    apply List.map_congr_left
    intro i _
    funext a
    unfold cell selVals
    rw [dGet_map_val]
    simp only [hPdef]
    cases dGet a t with
    | none => rfl
    | some pages => simp only [Option.map_some, Option.elim, Option.getD_some, colIter_eq]
  rw [hrows]
  unfold seenRows
  apply flatMap_congr_mem
  intro k hk
  rw [List.mem_range] at hk
  rcases h k hk with h0 | h0
  · rw [h0]; simp
  · rw [if_pos h0]

theorem sum_range_getD (L : List Nat) : ((List.range L.length).map fun k => L.getD k 0).sum = L.sum := by
  congr 1
  apply List.ext_getElem
  · simp
  · intro i h1 h2
    rw [List.getElem_map, List.getElem_range, List.getD_eq_getElem?_getD, List.getElem?_eq_getElem h2]
    rfl

theorem sum_map_eq_of_le {β : Type} (l : List β) (f g : β → Nat) (hle : ∀ x ∈ l, f x ≤ g x) (h : (l.map f).sum = (l.map g).sum) : ∀ x ∈ l, f x = g x := by
  induction l with
  | nil => simp
  | cons a l ih =>
    have h1 := hle a List.mem_cons_self
    have h2 : (l.map f).sum ≤ (l.map g).sum := by
      have hl : ∀ x ∈ l, f x ≤ g x := fun x hx => hle x (List.mem_cons_of_mem _ hx)
      clear ih h hle h1
      induction l with
      | nil => simp
      | cons b l ih =>
        have := hl b List.mem_cons_self
        have := ih fun x hx => hl x (List.mem_cons_of_mem _ hx)
        simp only [List.map_cons, List.sum_cons]
        omega
    simp only [List.map_cons, List.sum_cons] at h
    intro x hx
    rcases List.mem_cons.1 hx with rfl | hx
    · omega
    · exact ih (fun x hx => hle x (List.mem_cons_of_mem _ hx)) (by omega) x hx

/-- and only then are there as many -/
theorem seenRows_length (ops : SelOps α) (nul : α) (t : List (ν × List (SelPage α))) (L : List Nat) (reqs : List (ν × SelReq ν)) :
    (seenRows ops nul t L reqs).length = L.sum ↔ ∀ k < L.length, L.getD k 0 = 0 ∨ pageSeen ops t reqs k = true := by
  have hl : (seenRows ops nul t L reqs).length = ((List.range L.length).map fun k => if pageSeen ops t reqs k then L.getD k 0 else 0).sum := by
    unfold seenRows
    rw [List.length_flatMap]
    congr 1
    apply List.map_congr_left
    intro k _
    simp
  rw [hl, ← sum_range_getD L]
  constructor
  · intro h k hk
    have := sum_map_eq_of_le (List.range L.length) (fun k => if pageSeen ops t reqs k then L.getD k 0 else 0) (fun k => L.getD k 0)
      (by intro x _; show (if _ then _ else _) ≤ _; split <;> omega) h k (List.mem_range.2 hk)
    by_cases hb : pageSeen ops t reqs k = true
    · exact .inr hb
    · rw [if_neg hb] at this; exact .inl this.symm
  · intro h
    congr 1
    apply List.map_congr_left
    intro k hk
    rcases h k (List.mem_range.1 hk) with h0 | h0
    · rw [h0]; simp
    · rw [if_pos h0]

end

theorem numbered_asked (ws : Char → Bool) (entries : List SelEntry) :
    numbered selSuffix [] (entries.map fun e => (entryName ws e, entryReq e)) = (askedNames ws entries).zip (entries.map entryReq) := by
  set cols := entries.map fun e => (entryName ws e, entryReq e) with hc
  have h2 : (numbered selSuffix [] cols).map (·.2) = entries.map entryReq := by
    rw [numbered_snd, hc, List.map_map]; rfl
  have h1 : (numbered selSuffix [] cols).map (·.1) = askedNames ws entries := by
    apply List.ext_getElem?
    intro i
    have hlen : cols.length = entries.length := by rw [hc, List.length_map]
    by_cases hi : i < cols.length
    · rw [numbered_getElem selSuffix cols [] i hi]
      unfold askedNames askedName
      rw [List.getElem?_map, List.getElem?_range (by omega), Option.map_some, List.getElem?_eq_getElem (by omega)]
      simp only [hc, List.getElem_map, List.map_take, List.map_map, List.count_nil, Nat.add_zero]
      rw [show (instBEqOfDecidableEq : BEq (List Char)) = List.instBEq from lawful_beq_subsingleton _ _]
      rfl
    · have hl2 : ((numbered selSuffix [] cols).map (·.1)).length = cols.length := by
        have := congrArg List.length (numbered_snd selSuffix [] cols)
        simpa using this
      rw [List.getElem?_eq_none (by omega), List.getElem?_eq_none (by simp [askedNames]; omega)]
  rw [← h1, ← h2, List.zip_map']
  simp

/-- the requests of a selection: the names worked out with what is asked for -/
def askedReqs (ws : Char → Bool) (entries : List SelEntry) : List (List Char × SelReq (List Char)) := (askedNames ws entries).zip (entries.map entryReq)

theorem columnSelect_asked {α : Type} [DecidableEq α] (ops : SelOps α) (ws : Char → Bool) (dflt : α) (step ps : Nat) (t : List (List Char × List (SelPage α)))
    (entries : List SelEntry) (he : ∀ e ∈ entries, EntryOk ws e) (hn : (askedNames ws entries).Nodup) :
    columnSelect ops ws dflt step ps t entries = columnSelectNamed ops dflt step ps t (askedReqs ws entries) := by
  have h1 : entries.mapM (selBase ws) = .ok (entries.map fun e => (entryName ws e, entryReq e)) := mapM_ok _ _ _ fun e h => selBase_ok ws e (he e h)
  unfold columnSelect askedReqs
  rw [h1]
  dsimp only [Except.bind]
  rw [selNames_numbered selSuffix _ [] [] (by intro b; simp [dGet]), numbered_asked, selDesired_new]
  rw [List.map_fst_zip (by simp [askedNames])]
  exact hn

theorem askedReqs_mem {ws : Char → Bool} {entries : List SelEntry} {c : List Char × SelReq (List Char)} (h : c ∈ askedReqs ws entries) :
    ∃ e ∈ entries, c.2 = entryReq e := by
  have := (List.of_mem_zip h).2
  obtain ⟨e, h1, h2⟩ := List.mem_map.1 this
  exact ⟨e, h1, h2.symm⟩

theorem askedReqs_length (ws : Char → Bool) (entries : List SelEntry) : (askedReqs ws entries).length = entries.length := by
  simp [askedReqs, askedNames]

/-- **C45** (effect).  A selection of at least one column whose names worked out are distinct succeeds on a proper table.  Its two tables hold, split
and converted as asked, the rows of the pages that some request looks at; the rows of the other pages are in neither. -/
theorem C45_effect {α : Type} [DecidableEq α] (ops : SelOps α) (ws : Char → Bool) (dflt nul : α) (step ps : Nat) (t : List (List Char × List (SelPage α)))
    (L : List Nat) (entries : List SelEntry) (hs : 0 < step) (hps : 0 < ps) (ht : SelTable ops ps t L)
    (he : ∀ e ∈ entries, EntryOk ws e ∧ e.type ≠ .none ∧ e.column ∈ t.map (·.1)) (hne : entries ≠ []) (hn : (askedNames ws entries).Nodup) :
    ∃ res, columnSelect ops ws dflt step ps t entries = .ok res ∧
      SelectRows ops nul (seenRows ops nul t L (askedReqs ws entries)) t (askedReqs ws entries) res := by
  rw [columnSelect_asked ops ws dflt step ps t entries (fun e h => (he e h).1) hn]
  apply columnSelectNamed_effect ops dflt nul step ps hs hps t L ht
  · intro c hc
    obtain ⟨e, h1, h2⟩ := askedReqs_mem hc
    rw [h2]
    exact (he e h1).2
  · intro h
    have := askedReqs_length ws entries
    rw [h] at this
    exact hne (List.eq_nil_of_length_eq_zero this.symm)

theorem filter_split_length {β : Type} (l : List β) (p : β → Bool) : (l.filter p).length + (l.filter fun x => !p x).length = l.length := by
  induction l with
  | nil => rfl
  | cons a l ih =>
    cases h : p a <;> simp [h] <;> omega

/-- **C45** (exact).  On a proper table a selection keeps all rows and gives all the columns asked for exactly when the names worked out are distinct
and, unless nothing is asked for, every page with rows is looked at by some request. -/
theorem C45_exact {α : Type} [DecidableEq α] (ops : SelOps α) (ws : Char → Bool) (dflt nul : α) (step ps : Nat) (t : List (List Char × List (SelPage α)))
    (L : List Nat) (entries : List SelEntry) (hs : 0 < step) (hps : 0 < ps) (ht : SelTable ops ps t L)
    (he : ∀ e ∈ entries, EntryOk ws e ∧ e.type ≠ .none ∧ e.column ∈ t.map (·.1)) :
    (∃ res, ∃ names : List (List Char), columnSelect ops ws dflt step ps t entries = .ok res ∧ names.Nodup ∧ names.length = entries.length ∧
      SelectOk ops nul t L.sum (names.zip (entries.map entryReq)) res) ↔
    (askedNames ws entries).Nodup ∧ (entries = [] ∨ ∀ k < L.length, L.getD k 0 = 0 ∨ pageSeen ops t (askedReqs ws entries) k = true) := by
  constructor
  · rintro ⟨res, names, h1, h2, h3, h4⟩
    have hx := C46_exact ops ws dflt step ps t entries res h1
    have hpn : res.pass.map (·.1) = names := by
      have := congrArg (fun l : List (List Char × List α) => l.map (·.1)) h4.1
      simp only [tview, List.map_map] at this
      have e2 : (names.zip (entries.map entryReq)).map (·.1) = names := List.map_fst_zip (by simp [h3])
      refine Eq.trans ?_ (this.trans ?_)
      · rfl
      · conv_rhs => rw [← e2]
        rfl
    have hlen : res.pass.length = entries.length := by rw [← h3, ← hpn, List.length_map]
    have hnd := hx.2.1 hlen
    refine ⟨hnd, ?_⟩
    by_cases hne : entries = []
    · exact .inl hne
    · right
      have hna : names = askedNames ws entries := by
        rw [← hpn, C46_effect ops ws dflt step ps t entries res h1, firstOccs_of_nodup hnd]
      obtain ⟨res', g1, g2⟩ := C45_effect ops ws dflt nul step ps t L entries hs hps ht he hne hnd
      rw [h1, Except.ok.injEq] at g1
      subst g1
      rw [hna] at h4
      have hr : (askedNames ws entries).zip (entries.map entryReq) = askedReqs ws entries := rfl
      rw [hr] at h4
      rw [← seenRows_length ops nul]
      have hrl : (selRows nul (selVals t) L.sum).length = L.sum := by simp [selRows]
      have p1 := h4.1.symm.trans g2.1
      have p2 := h4.2.1.symm.trans g2.2.1
      have hq : ∃ c, c ∈ askedReqs ws entries := List.exists_mem_of_ne_nil _ fun h => by
        have := askedReqs_length ws entries
        rw [h] at this
        exact hne (List.eq_nil_of_length_eq_zero this.symm)
      obtain ⟨c, hc⟩ := hq
      obtain ⟨d, hd⟩ := List.exists_mem_of_ne_nil t ht.nonempty
      have q1 := congrArg (fun x : List Char × List α => x.2.length) (List.map_inj_left.1 p1 c hc)
      have q2 := congrArg (fun x : List Char × List α => x.2.length) (List.map_inj_left.1 p2 d hd)
      simp only [List.length_map] at q1 q2
      rw [← filter_split_length (seenRows ops nul t L (askedReqs ws entries)) (selOk ops (askedReqs ws entries)), ← q1, ← q2, filter_split_length, hrl]
  · rintro ⟨hnd, h⟩
    have hz : (askedNames ws entries).length = entries.length := by simp [askedNames]
    by_cases hne : entries = []
    · subst hne
      refine ⟨⟨[], t.map fun c => (c.1, []), []⟩, [], ?_, List.nodup_nil, rfl, ?_⟩
      · rw [columnSelect_asked ops ws dflt step ps t [] (by simp) hnd]
        have hlay : ∀ c ∈ t, selLayout c = (L.sum, L.length) := by
          intro c hc
          unfold selLayout
          rw [ht.lens c hc]
          congr 1
          rw [← ht.lens c hc, List.length_map]
        unfold columnSelectNamed askedReqs
        cases hte : t with
        | nil => exact absurd hte ht.nonempty
        | cons c0 t0 =>
          rw [← hte]
          have hm : t.map selLayout = (L.sum, L.length) :: t0.map selLayout := by
            rw [hte, List.map_cons, hlay c0 (by rw [hte]; exact List.mem_cons_self)]
          rw [hm]
          dsimp only
          rw [if_neg (by
            rintro ⟨x, hx, hne⟩
            obtain ⟨c, hc, rfl⟩ := List.mem_map.1 hx
            exact hne (hlay c (by rw [hte]; exact List.mem_cons_of_mem _ hc)))]
          rfl
      · refine ⟨rfl, ?_, ?_⟩
        · unfold tview
          rw [List.map_map]
          apply List.map_congr_left
          intro c _
          simp [selOk, colIter_eq]
        · simp [selOk]
    · obtain ⟨res, g1, g2⟩ := C45_effect ops ws dflt nul step ps t L entries hs hps ht he hne hnd
      rw [seenRows_all ops nul ps t L ht _ (h.resolve_left hne)] at g2
      exact ⟨res, askedNames ws entries, g1, hnd, hz, g2⟩

/-- the table of numbers and texts and the requests of the other example meet the hypotheses, and every page is looked at -/
example : pageSeen selV exSelTable (askedReqs (· == ' ') exSelEntries) 0 = true ∧ pageSeen selV exSelTable (askedReqs (· == ' ') exSelEntries) 1 = true ∧
    (askedNames (· == ' ') exSelEntries).Nodup := by
  refine ⟨rfl, rfl, by decide⟩

/-- a page of numbers that is asked for as numbers, in a column that also has texts, is not looked at -/
example : pageSeen selV [(['a'], [⟨some .int, [.int 1, .int 2]⟩, ⟨some .str, [.str ['3']]⟩])] (askedReqs (· == ' ') [exEntry 'a' .int]) 0 = false ∧
    pageSeen selV [(['a'], [⟨some .int, [.int 1, .int 2]⟩, ⟨some .str, [.str ['3']]⟩])] (askedReqs (· == ' ') [exEntry 'a' .int]) 1 = true := ⟨rfl, rfl⟩

end Tablite
