import Verif.Model.SaveLoad
import Verif.Props.Reindex
/-!
# C21: save / load round trip
-/

namespace Tablite
set_option linter.unusedSectionVars false

section
variable {ν η α : Type} [DecidableEq ν] [DecidableEq η]

/-- a table that can be in memory: distinct column names, no page file is called `table.yml`, pages with the same file name have the same
contents (page files are written once and their names are never given out twice, see C22) -/
structure NTbl.Ok (yml : η) (t : NTbl ν η α) : Prop where
  names : (t.map (·.1)).Nodup
  noYml : ∀ c ∈ t, ∀ p ∈ c.2, p.1 ≠ yml
  files : ∀ c ∈ t, ∀ p ∈ c.2, ∀ c' ∈ t, ∀ p' ∈ c'.2, p.1 = p'.1 → p.2 = p'.2

/-- what a table shows to a user: names in order and values -/
def NTbl.view (t : NTbl ν η α) : List (ν × List α) := t.map fun c => (c.1, (c.2.map (·.2)).flatten)

/-- the full claim -/
def C21_statement : Prop :=
  ∀ (ν η α : Type) [DecidableEq ν] [DecidableEq η] (ps : Nat) (yml : η) (ord : List (η × List α) → List (η × List α)),
    0 < ps → (∀ l x, x ∈ ord l ↔ x ∈ l) → ∀ t : NTbl ν η α, t.Ok yml →
      ∃ z r, tblSave yml ord t = .ok z ∧ tblLoad ps yml z = .ok r ∧ tview r = t.view ∧ ∀ c ∈ r, ∀ p ∈ c.2, p.length ≤ ps

theorem sum_zero_iff (l : List Nat) : l.sum = 0 ↔ ∀ x ∈ l, x = 0 := by
  induction l with
  | nil => simp
  | cons a t ih => simp [ih]

theorem dUpd_new {κ β : Type} [DecidableEq κ] (init : β) (k : κ) (f : β → β) (d : List (κ × β)) (h : k ∉ d.map (·.1)) :
    dUpd init k f d = d ++ [(k, f init)] := by
  induction d with
  | nil => rfl
  | cons e t ih =>
    obtain ⟨a, b⟩ := e
    simp only [List.map_cons, List.mem_cons, not_or] at h
    simp only [dUpd, if_neg (Ne.symm h.1), ih h.2, List.cons_append]

theorem dGet_unique {κ β : Type} [DecidableEq κ] (d : List (κ × β)) (k : κ) (b : β) (hm : (k, b) ∈ d) (hu : ∀ b', (k, b') ∈ d → b' = b) :
    dGet k d = some b := by
  induction d with
  | nil => simp at hm
  | cons e t ih =>
    obtain ⟨a, c⟩ := e
    by_cases h : a = k
    · subst h
      simp only [dGet, if_true]
      rw [hu c (by simp)]
    · simp only [dGet, if_neg h]
      rcases List.mem_cons.1 hm with e | e
      · exact absurd (Prod.ext_iff.1 e).1.symm h
      · exact ih e (fun b' hb' => hu b' (by simp [hb']))

theorem readPage_ok (yml : η) (ord : List (η × List α) → List (η × List α)) (hord : ∀ l x, x ∈ ord l ↔ x ∈ l) (t : NTbl ν η α) (h : t.Ok yml)
    (c : ν × List (η × List α)) (hc : c ∈ t) (p : η × List α) (hp : p ∈ c.2) : readPage (archive yml ord t) p.1 = .ok p.2 := by
  have : zipRead (archive yml ord t) p.1 = .ok (.page p.2) := by
    unfold zipRead
    rw [dGet_unique (archive yml ord t).reverse p.1 (.page p.2)]
    · simp only [List.mem_reverse, archive, List.mem_cons, List.mem_flatMap, List.mem_map]
      exact Or.inr ⟨c, hc, p, (hord _ _).2 hp, rfl⟩
    · intro b hb
      simp only [List.mem_reverse, archive, List.mem_cons, List.mem_flatMap, List.mem_map, Prod.mk.injEq] at hb
      rcases hb with ⟨e, _⟩ | ⟨c', hc', p', hp', e1, e2⟩
      · exact absurd e (h.noYml c hc p hp)
      · rw [← e2, h.files c hc p hp c' hc' p' ((hord _ _).1 hp') e1.symm]
  unfold readPage
  rw [this]; rfl

theorem zipRead_yml (yml : η) (ord : List (η × List α) → List (η × List α)) (hord : ∀ l x, x ∈ ord l ↔ x ∈ l) (t : NTbl ν η α) (h : t.Ok yml) :
    zipRead (archive yml ord t) yml = .ok (.yml (t.map fun c => (c.1, c.2.map (·.1)))) := by
  unfold zipRead
  rw [dGet_unique (archive yml ord t).reverse yml (.yml (t.map fun c => (c.1, c.2.map (·.1))))]
  · simp [archive]
  · intro b hb
    simp only [List.mem_reverse, archive, List.mem_cons, List.mem_flatMap, List.mem_map, Prod.mk.injEq] at hb
    rcases hb with ⟨_, e⟩ | ⟨c', hc', p', hp', e1, _⟩
    · exact e
    · exact absurd e1 (h.noYml c' hc' p' ((hord _ _).1 hp'))

theorem loadCol_ok (ps : Nat) (hps : 0 < ps) (z : List (η × Entry ν η α)) (c : List (η × List α)) (h : ∀ p ∈ c, readPage z p.1 = .ok p.2) (init : Pages α)
    (hi : ∀ p ∈ init, p.length ≤ ps) :
    ∃ q, (c.map (·.1)).foldlM (fun col name => do .ok (extend ps col (← readPage z name))) init = .ok q ∧
      colIter q = colIter init ++ (c.map (·.2)).flatten ∧ ∀ p ∈ q, p.length ≤ ps := by
  induction c generalizing init with
  | nil => exact ⟨init, rfl, by simp, hi⟩
  | cons p c ih =>
    have hp := h p (by simp)
    obtain ⟨q, h1, h2, h3⟩ := ih (fun x hx => h x (by simp [hx])) (extend ps init p.2) (by
      intro x hx
      rcases List.mem_append.1 hx with hx | hx
      · exact hi x hx
      · exact (paginate_sizes hps p.2 x hx).2)
    refine ⟨q, ?_, ?_, h3⟩
    · simp only [List.map_cons, List.foldlM_cons, hp]
      exact h1
    · rw [h2, colIter_extend ps hps]; simp

theorem loadCols_ok (ps : Nat) (hps : 0 < ps) (z : List (η × Entry ν η α)) (t : NTbl ν η α) (hn : (t.map (·.1)).Nodup)
    (h : ∀ c ∈ t, ∀ p ∈ c.2, readPage z p.1 = .ok p.2) (init : Tbl ν α) (hd : ∀ c ∈ t, c.1 ∉ init.map (·.1)) (hi : ∀ c ∈ init, ∀ p ∈ c.2, p.length ≤ ps) :
    ∃ r, (t.map fun c => (c.1, c.2.map (·.1))).foldlM (fun r c => do .ok (tblSet r c.1 (← loadCol ps z c.2))) init = .ok r ∧
      tview r = tview init ++ t.view ∧ ∀ c ∈ r, ∀ p ∈ c.2, p.length ≤ ps := by
  induction t generalizing init with
  | nil => exact ⟨init, rfl, by simp [NTbl.view], hi⟩
  | cons c t ih =>
    simp only [List.map_cons, List.nodup_cons] at hn
    obtain ⟨q, h1, h2, h3⟩ := loadCol_ok ps hps z c.2 (h c (by simp)) [] (by simp)
    have hnew : dUpd [] c.1 (fun _ => q) init = init ++ [(c.1, q)] := dUpd_new _ _ _ _ (hd c (by simp))
    obtain ⟨r, r1, r2, r3⟩ := ih hn.2 (fun c' hc' => h c' (by simp [hc'])) (init ++ [(c.1, q)]) (by
        intro c' hc'
        simp only [List.map_append, List.map_cons, List.map_nil, List.mem_append, List.mem_singleton, not_or]
        refine ⟨hd c' (by simp [hc']), ?_⟩
        intro e
        exact hn.1 (e ▸ List.mem_map.2 ⟨c', hc', rfl⟩))
      (by
        intro c' hc' p hp
        rcases List.mem_append.1 hc' with hc' | hc'
        · exact hi c' hc' p hp
        · simp only [List.mem_singleton] at hc'; subst hc'; exact h3 p hp)
    refine ⟨r, ?_, ?_, r3⟩
    · simp only [List.map_cons, List.foldlM_cons]
      have : loadCol ps z (c.2.map (·.1)) = .ok q := h1
      rw [this]
      show (t.map fun c => (c.1, c.2.map (·.1))).foldlM _ (dUpd [] c.1 (fun _ => q) init) = _
      rw [hnew]
      exact r1
    · rw [r2]
      simp only [tview, NTbl.view, List.map_append, List.map_cons, List.map_nil, List.append_assoc, List.singleton_append]
      rw [h2]; simp [colIter]

/-- **C21** (partial) a table with at least one page is saved, and loading it gives the same names in the same order and the same values,
whatever the page layout, also with pages that are repeated or shared between columns; the loaded pages respect the page size.  Missing:
tables without any page, see `C21_fails`. -/
theorem C21_partial (ps : Nat) (hps : 0 < ps) (yml : η) (ord : List (η × List α) → List (η × List α)) (hord : ∀ l x, x ∈ ord l ↔ x ∈ l)
    (t : NTbl ν η α) (h : t.Ok yml) (hne : ∃ c ∈ t, c.2 ≠ []) :
    ∃ z r, tblSave yml ord t = .ok z ∧ tblLoad ps yml z = .ok r ∧ tview r = t.view ∧ ∀ c ∈ r, ∀ p ∈ c.2, p.length ≤ ps := by
  obtain ⟨r, r1, r2, r3⟩ := loadCols_ok ps hps (archive yml ord t) t h.names (fun c hc p hp => readPage_ok yml ord hord t h c hc p hp) [] (by simp) (by simp)
  refine ⟨archive yml ord t, r, ?_, ?_, by rw [r2]; simp [tview], r3⟩
  · unfold tblSave
    rw [if_neg]
    obtain ⟨c, hc, hp⟩ := hne
    intro hs
    have := (sum_zero_iff _).1 hs c.2.length (List.mem_map.2 ⟨c, hc, rfl⟩)
    exact hp (List.length_eq_zero_iff.1 this)
  · unfold tblLoad
    rw [zipRead_yml yml ord hord t h]
    exact r1

/-- the case missing in `C21_partial`: without pages `save` raises ZeroDivisionError, for every such table -/
theorem C21_no_pages_fails (yml : η) (ord : List (η × List α) → List (η × List α)) (t : NTbl ν η α) (h : ∀ c ∈ t, c.2 = []) :
    tblSave yml ord t = .error .zeroDivision := by
  unfold tblSave
  rw [if_pos]
  rw [sum_zero_iff]
  intro x hx
  obtain ⟨c, hc, rfl⟩ := List.mem_map.1 hx
  simp [h c hc]

theorem C21_fails : ¬ C21_statement := by
  intro h
  obtain ⟨z, r, hz, _⟩ := h String String Nat 3 "table.yml" id (by decide) (by simp) [("a", [])] ⟨by simp, by simp, by simp⟩
  rw [C21_no_pages_fails _ _ _ (by simp)] at hz
  cases hz

/-- a table with a page repeated in one column and shared with another one -/
example : NTbl.Ok "table.yml" [("a", [("7-1.npy", [1, 2, 3]), ("7-1.npy", [1, 2, 3]), ("7-2.npy", [4])]), ("b", [("7-1.npy", [1, 2, 3]), ("7-3.npy", [])])] ∧
    (match tblSave "table.yml" List.reverse [("a", [("7-1.npy", [1, 2, 3]), ("7-1.npy", [1, 2, 3]), ("7-2.npy", [4])]), ("b", [("7-1.npy", [1, 2, 3]), ("7-3.npy", [])])] with
      | .ok z => (tblLoad 2 "table.yml" z).toOption
      | .error _ => none) = some [("a", [[1, 2], [3], [1, 2], [3], [4]]), ("b", [[1, 2], [3]])] := by
  refine ⟨⟨by decide, by decide, by decide⟩, by decide +kernel⟩

end

end Tablite
