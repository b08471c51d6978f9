import Verif.Props.Readers
import Verif.Props.Script
/-!
# C140: scripts in several sessions, tables being saved and loaded between them
-/
namespace Tablite
set_option linter.unusedSectionVars false

section
variable {ν ρ α : Type} [DecidableEq ν] [DecidableEq ρ] [DecidableEq α]

/-- `t` is saved - under any names of its page files - and `t'` is what is loaded with the page size `ps` -/
def Reopened (yml : ρ) (ord : List (ρ × List α) → List (ρ × List α)) (ps : Nat) (t t' : Tbl ν α) : Prop :=
  ∃ n : NTbl ν ρ α, n.tbl = t ∧ n.Ok yml ∧ ∃ z, tblSave yml ord n = .ok z ∧ tblLoad ps yml z = .ok t'

theorem tview_load (ps : Nat) (hps : 0 < ps) (t : Tbl ν α) : tview (t.map fun c => (c.1, c.2.flatMap fun q => paginate ps q)) = tview t := by
  unfold tview
  rw [List.map_map]
  refine List.map_congr_left fun c _ => ?_
  simp only [Function.comp_def, Prod.mk.injEq, true_and]
  rw [colIter_eq, colIter_eq]
  exact loaded_flatten ps hps c.2

theorem aligned_load (ps : Nat) (t : Tbl ν α) (h : Aligned t) : Aligned (t.map fun c => (c.1, c.2.flatMap fun q => paginate ps q)) := by
  obtain ⟨L, hL⟩ := h
  refine ⟨L.flatMap (layoutOf ps), ?_⟩
  intro c hc
  obtain ⟨c', hc', rfl⟩ := List.mem_map.1 hc
  rw [← hL c' hc']
  exact loaded_layout ps c'.2

theorem solid_load (ps : Nat) (hps : 0 < ps) (t : Tbl ν α) : Solid (t.map fun c => (c.1, c.2.flatMap fun q => paginate ps q)) := by
  intro c hc p hp
  obtain ⟨c', _, rfl⟩ := List.mem_map.1 hc
  obtain ⟨q, _, hq⟩ := List.mem_flatMap.1 hp
  exact paginate_solid hps q p hq

/-- **C140** (one table): what is loaded has the rows of what was saved, its columns are cut at the same places if they were, and no page is empty. -/
theorem C140_reopened (yml : ρ) (ord : List (ρ × List α) → List (ρ × List α)) (hord : ∀ l x, x ∈ ord l ↔ x ∈ l) (nul : α) (ps : Nat) (hps : 0 < ps) (t t' : Tbl ν α) (r : Rel ν α)
    (h : Reopened yml ord ps t t') (hs : Shows nul t r) (ha : Aligned t) : Shows nul t' r ∧ Aligned t' ∧ Solid t' := by
  obtain ⟨n, rfl, hok, z, hz, hl⟩ := h
  rw [loaded_eq ps yml ord hord n hok z t' hz hl]
  refine ⟨?_, aligned_load ps _ ha, solid_load ps hps _⟩
  rw [shows_iff] at hs ⊢
  rw [tview_load ps hps]
  exact hs

/-- **C140** (one table), exactly: a table without empty pages can be saved and loaded if and only if it has a row. -/
theorem C140_exact (yml : ρ) (ord : List (ρ × List α) → List (ρ × List α)) (hord : ∀ l x, x ∈ ord l ↔ x ∈ l) (nul : α) (ps : Nat) (t : Tbl ν α) (r : Rel ν α) (hs : Shows nul t r) (hso : Solid t)
    (n : NTbl ν ρ α) (hn : n.tbl = t) (hok : n.Ok yml) : (∃ z t', tblSave yml ord n = .ok z ∧ tblLoad ps yml z = .ok t') ↔ r.rows ≠ [] := by
  subst hn
  have hlen : ∀ c ∈ n, colLen (c.2.map (·.2)) = r.rows.length := fun c hc => hs.2.2.1 (c.1, c.2.map (·.2)) (List.mem_map.2 ⟨c, hc, rfl⟩)
  have hnn : n ≠ [] := by
    rintro rfl
    exact hs.ne rfl
  have key : (∃ c ∈ n, c.2 ≠ []) ↔ r.rows ≠ [] := by
    constructor
    · rintro ⟨c, hc, hne⟩ he
      have h1 := hlen c hc
      rw [he] at h1
      obtain ⟨p, pages, hp⟩ := List.exists_cons_of_ne_nil hne
      have h2 : p.2 ≠ [] := hso (c.1, c.2.map (·.2)) (List.mem_map.2 ⟨c, hc, rfl⟩) p.2 (by rw [hp]; simp)
      rw [hp] at h1
      unfold colLen at h1
      simp only [List.map_cons, List.sum_cons, List.length_nil] at h1
      have := List.length_pos_of_ne_nil h2
      omega
    · intro hr
      obtain ⟨c, rest, rfl⟩ := List.exists_cons_of_ne_nil hnn
      refine ⟨c, by simp, ?_⟩
      intro he
      have h1 := hlen c (by simp)
      rw [he] at h1
      exact hr (List.eq_nil_of_length_eq_zero h1.symm)
  rw [← key]
  constructor
  · rintro ⟨z, t', hz, _⟩
    by_contra hcon
    push Not at hcon
    rw [C21_no_pages_fails yml ord n hcon] at hz
    cases hz
  · intro hne
    obtain ⟨z, h1, h2⟩ := C135_load ps yml ord hord n hok hne
    exact ⟨z, _, h1, h2⟩

/-- page files may be named after what is in them, so every table with distinct names can be given files -/
def byContents (t : Tbl ν α) : NTbl ν (Option (List α)) α := t.map fun c => (c.1, c.2.map fun p => (some p, p))

/-- **C140** (one table): a table with rows and without empty pages can be reopened. -/
theorem C140_possible (ord : List (Option (List α) × List α) → List (Option (List α) × List α)) (hord : ∀ l x, x ∈ ord l ↔ x ∈ l) (nul : α) (ps : Nat) (t : Tbl ν α) (r : Rel ν α)
    (hs : Shows nul t r) (hso : Solid t) (hr : r.rows ≠ []) : ∃ t', Reopened none ord ps t t' := by
  have ht : (byContents t).tbl = t := by
    unfold byContents NTbl.tbl
    rw [List.map_map]
    conv_rhs => rw [← List.map_id t]
    refine List.map_congr_left fun c _ => ?_
    simp [List.map_map, Function.comp_def]
  have hok : (byContents t).Ok none := by
    constructor
    · have : (byContents t).map (·.1) = t.map (·.1) := by simp [byContents, List.map_map, Function.comp_def]
      rw [this, hs.2.1]
      exact hs.1.2.1
    · intro c hc p hp
      obtain ⟨c', -, rfl⟩ := List.mem_map.1 hc
      obtain ⟨q, -, rfl⟩ := List.mem_map.1 hp
      simp
    · intro c hc p hp c' hc' p' hp' e
      obtain ⟨d, -, rfl⟩ := List.mem_map.1 hc
      obtain ⟨q, -, rfl⟩ := List.mem_map.1 hp
      obtain ⟨d', -, rfl⟩ := List.mem_map.1 hc'
      obtain ⟨q', -, rfl⟩ := List.mem_map.1 hp'
      exact Option.some.inj e
  obtain ⟨z, t', h1, h2⟩ := (C140_exact none ord hord nul ps t r hs hso _ ht hok).2 hr
  exact ⟨t', _, ht, hok, z, h1, h2⟩

/-- the full claim: every table a script may leave can be saved and loaded, and what is loaded has its rows -/
def C140_statement : Prop :=
  ∀ (ps : Nat), 0 < ps → ∀ (t : Tbl String Nat) (r : Rel String Nat), Shows 0 t r → Aligned t → Solid t → ∀ n : NTbl String String Nat, n.tbl = t → n.Ok "table.yml" →
    ∃ z t', tblSave "table.yml" id n = .ok z ∧ tblLoad ps "table.yml" z = .ok t' ∧ Shows 0 t' r

/-- a table whose rows were all filtered away cannot be saved -/
theorem C140_fails : ¬ C140_statement := by
  intro h
  obtain ⟨z, t', h1, h2, -⟩ := h 10 (by omega) [("a", [])] ⟨["a"], []⟩ ⟨⟨by decide, by decide, by decide⟩, rfl, by unfold Rect; decide, by decide +kernel⟩ ⟨[], by decide⟩ (by unfold Solid; decide)
    [("a", [])] rfl ⟨by decide, by decide, by decide⟩
  exact absurd h1 (by rw [C21_no_pages_fails _ _ _ (by decide)]; intro e; cases e)

end

section
variable {ν κ K η φ σ ρ : Type} [DecidableEq ν] [LinearOrder K] [DecidableEq η] [DecidableEq ρ]

/-- sessions one after the other: in each a script is run with a page size of its own, and every table is kept as it is or saved and loaded before the next session -/
inductive Sessions (S : Surroundings ν κ K η) (F : Folds ν φ σ) (yml : ρ) (ord : List (ρ × List SVal) → List (ρ × List SVal)) :
    (Nat → Tbl ν SVal) → List (Nat × List (Nat × Stmt ν κ φ)) → (Nat → Tbl ν SVal) → Prop
  | done (db) : Sessions S F yml ord db [] db
  | next (db db1 db2 out ps ps' script rest) : scriptRun S F ps db script = .ok db1 → 0 < ps' → (∀ i, db2 i = db1 i ∨ Reopened yml ord ps' (db1 i) (db2 i)) → Sessions S F yml ord db2 rest out →
      Sessions S F yml ord db ((ps, script) :: rest) out

theorem scriptGives_append (S : Surroundings ν κ K η) (F : Folds ν φ σ) (a b : List (Nat × Stmt ν κ φ)) : ∀ rels mid out, ScriptGives S F rels a mid → ScriptGives S F mid b out →
    ScriptGives S F rels (a ++ b) out := by
  induction a with
  | nil => rintro rels mid out rfl h; exact h
  | cons x a ih =>
    obtain ⟨x, s⟩ := x
    rintro rels mid out ⟨r, h1, h2⟩ h
    exact ⟨r, h1, ih _ mid out h2 h⟩

theorem scriptOk_append (S : Surroundings ν κ K η) (F : Folds ν φ σ) (strict : Bool) (a b : List (Nat × Stmt ν κ φ)) : ∀ rels, ScriptOk S F strict rels (a ++ b) →
    ScriptOk S F strict rels a ∧ ∀ mid, ScriptGives S F rels a mid → ScriptOk S F strict mid b := by
  induction a with
  | nil => rintro rels h; exact ⟨trivial, by rintro mid rfl; exact h⟩
  | cons x a ih =>
    obtain ⟨x, s⟩ := x
    rintro rels ⟨h1, h2⟩
    exact ⟨⟨h1, fun r hr => (ih _ (h2 r hr)).1⟩, fun mid ⟨r, hr, hm⟩ => (ih _ (h2 r hr)).2 mid hm⟩

/-- **C140** (partial): whatever is saved and loaded between sessions, and whatever the page size of each session, the tables at the end have the rows which all the scripts, one after the other,
compute on lists of rows.  Missing: tables without rows, which cannot be saved (`C140_exact`), and what is missing in `C128_partial`. -/
theorem C140_partial (S : Surroundings ν κ K η) (F : Folds ν φ σ) (hmk : ∀ d a b, S.fresh d a = S.fresh d b → a = b) (hord : ∀ l v, v ∈ S.ord l ↔ v ∈ l) (hjord : ∀ l, (S.jord l).Perm l)
    (yml : ρ) (ord : List (ρ × List SVal) → List (ρ × List SVal)) (hz : ∀ l x, x ∈ ord l ↔ x ∈ l) (sessions : List (Nat × List (Nat × Stmt ν κ φ))) (hps : ∀ s ∈ sessions, 0 < s.1)
    (db out : Nat → Tbl ν SVal) (rels : Nat → Rel ν SVal) (hdb : ∀ i, Shows .none (db i) (rels i) ∧ Aligned (db i) ∧ Solid (db i))
    (hs : ScriptOk S F true rels (sessions.flatMap (·.2))) (h : Sessions S F yml ord db sessions out) :
    ∃ rels', ScriptGives S F rels (sessions.flatMap (·.2)) rels' ∧ ∀ i, Shows .none (out i) (rels' i) := by
  induction h generalizing rels with
  | done db => exact ⟨rels, rfl, fun i => (hdb i).1⟩
  | next db db1 db2 out ps ps' script rest h1 h2 h3 h4 ih =>
    rw [List.flatMap_cons] at hs ⊢
    obtain ⟨s1, s2⟩ := scriptOk_append S F true _ _ rels hs
    obtain ⟨db', mid, e1, e2, e3⟩ := C128_partial S F hmk hord hjord ps (hps (ps, script) (by simp)) script db rels hdb s1
    rw [h1] at e1
    cases e1
    obtain ⟨rels', g1, g2⟩ := ih (fun s hs => hps s (by simp [hs])) mid (fun i => by
      rcases h3 i with e | e
      · rw [e]; exact e3 i
      · exact C140_reopened yml ord hz .none ps' h2 _ _ _ e (e3 i).1 (e3 i).2.1) (s2 mid e2)
    exact ⟨rels', scriptGives_append S F _ _ rels mid rels' e2 g1, g2⟩

end

/-- the first table stacked on itself -/
def doubled : Tbl String SVal := [("a", [[.i 1, .i 2], [.i 1, .i 2]]), ("b", [[.str "x", .str "y"], [.str "x", .str "y"]])]

/-- and loaded with pages of one row -/
def doubledLoaded : Tbl String SVal := [("a", [[.i 1], [.i 2], [.i 1], [.i 2]]), ("b", [[.str "x"], [.str "y"], [.str "x"], [.str "y"]])]

/-- the first of two tables is stacked on itself, the outcome is saved and loaded with pages of one row, and the first table is stacked on it -/
example : ∃ out, Sessions plainly counting (none : Option (List SVal)) id twoTables [(10, [(2, .query (.plus (.table 0) (.table 0)))]), (3, [(3, .query (.plus (.table 2) (.table 0)))])] out ∧
    tview (out 3) = [("a", [.i 1, .i 2, .i 1, .i 2, .i 1, .i 2]), ("b", [.str "x", .str "y", .str "x", .str "y", .str "x", .str "y"])] := by
  have hre : Reopened (none : Option (List SVal)) id 1 doubled doubledLoaded :=
    ⟨byContents doubled, by decide +kernel, ⟨by decide +kernel, by decide +kernel, by decide +kernel⟩, _, rfl, by decide +kernel⟩
  refine ⟨_, .next twoTables (assign twoTables 2 doubled) (assign twoTables 2 doubledLoaded) _ 10 1 _ _ rfl (by omega) ?_ (.next _ _ _ _ 3 1 _ _ rfl (by omega) (fun _ => .inl rfl) (.done _)), by decide +kernel⟩
  intro i
  by_cases hi : i = 2
  · subst hi
    exact .inr hre
  · left
    simp [hi, assign]

/-- and the scripts of this case meet the condition of `C140_partial` -/
example : ScriptOk plainly counting true twoRels [(2, .query (.plus (.table 0) (.table 0))), (3, .query (.plus (.table 2) (.table 0)))] := by
  refine ⟨⟨⟨trivial, trivial, ?_⟩, fun _ => ⟨trivial, trivial⟩⟩, ?_⟩
  · rintro a b rfl rfl
    simp
  · rintro r ⟨a, b, rfl, rfl, rfl⟩
    refine ⟨⟨⟨trivial, trivial, ?_⟩, fun _ => ⟨trivial, trivial⟩⟩, fun _ _ => trivial⟩
    rintro a b rfl rfl
    simp [assign, twoRels]

end Tablite
