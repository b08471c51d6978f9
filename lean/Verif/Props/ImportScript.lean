import Verif.Props.Script
import Verif.Props.ImportUniform
import Verif.Props.Preview
/-!
# C132: scripts on imported files

A user imports text files and works on the tables.  C128 asks for tables whose columns are cut into pages at the same places, with no empty page.  Here: every import gives columns cut at the same places.
Pages are empty only if an import of texts skips all rows of a page; then a left join of the table can raise.
-/

namespace Tablite

/-- an imported table with its values as values of the other operations -/
def mapTable {β : Type} (val : β → SVal) (t : List (List Char × List (List β))) : Tbl (List Char) SVal := t.map fun c => (c.1, c.2.map (·.map val))

/-- a text as a value -/
def textVal (s : List Char) : SVal := .str (String.ofList s)

/-- Spec: the names of the fields of the file -/
def fileNames (mk : List Char → Nat → List Char) (num : Nat → List Char) (o : ImportOpts) (recs : List (List (List Char))) : List (List Char) :=
  fieldNames mk num o.headers ((recs.getD o.headerRow []).map stripEscape)

/-- Spec: the names of the fields that are asked for -/
def wantedNames (mk : List Char → Nat → List Char) (num : Nat → List Char) (o : ImportOpts) (recs : List (List (List Char))) : List (List Char) :=
  o.columns.getD (fileNames mk num o recs)

/-- Spec: the requested rows of the file with the fields that are asked for -/
def fileRel (mk : List Char → Nat → List Char) (num : Nat → List Char) (o : ImportOpts) (recs : List (List (List Char))) : Rel (List Char) SVal :=
  ⟨uniqueNames mk (wantedNames mk num o recs),
    (requestedRows o recs).map fun r => (wantedNames mk num o recs).map fun c => textVal (r.getD ((fileNames mk num o recs).idxOf c) [])⟩

/-- a file that can be imported: it can be parsed, has the header row and the fields asked for, at least one -/
structure Importable (mk : List Char → Nat → List Char) (num : Nat → List Char) (d : Dialect) (o : ImportOpts) (lines : List (List Char)) (recs : List (List (List Char))) : Prop where
  parse : parseLines d {} lines = .ok recs
  header : o.headerRow < recs.length
  wanted : ∀ c ∈ wantedNames mk num o recs, c ∈ fileNames mk num o recs
  some : wantedNames mk num o recs ≠ []

/-- a table whose columns are given by blocks of rows -/
theorem blocks_shows {ν : Type} [DecidableEq ν] (names : List ν) (hnd : names.Nodup) (hne : names ≠ []) (t : Tbl ν SVal) (hn : t.map (·.1) = names) {γ : Type} (blocks : List (List γ)) (f : Nat → γ → SVal)
    (hc : ∀ k, k < names.length → ∀ col, t[k]? = some col → col.2 = blocks.map (·.map (f k))) :
    Shows .none t ⟨names, blocks.flatten.map fun r => (List.range names.length).map fun k => f k r⟩ ∧ Aligned t ∧ ((∀ b ∈ blocks, b ≠ []) ↔ Solid t) := by
  have hl : t.length = names.length := by rw [← hn, List.length_map]
  have hmem : ∀ c ∈ t, ∃ k, k < names.length ∧ c.2 = blocks.map (·.map (f k)) := by
    intro c hc'
    obtain ⟨k, hk, rfl⟩ := List.getElem_of_mem hc'
    exact ⟨k, by omega, hc k (by omega) _ (List.getElem?_eq_getElem hk)⟩
  refine ⟨?_, ⟨blocks.map List.length, ?_⟩, ?_⟩
  · rw [shows_iff]
    refine ⟨⟨hne, hnd, ?_⟩, ?_⟩
    · intro row hr
      obtain ⟨r, -, rfl⟩ := List.mem_map.1 hr
      simp
    · apply List.ext_getElem
      · simp [tview, Rel.cols, hl]
      · intro k h1 h2
        have hk : k < t.length := by simpa [tview] using h1
        have hkn : k < names.length := by omega
        have hname : t[k].1 = names[k] := by simp only [← hn, List.getElem_map]
        simp only [tview, Rel.cols, List.getElem_map, hname, Prod.mk.injEq, true_and]
        rw [hc k hkn _ (List.getElem?_eq_getElem hk)]
        rw [show colIter (blocks.map (·.map (f k))) = blocks.flatten.map (f k) by simp only [colIter, List.map_flatten, List.flatMap, List.map_map]; rfl, List.map_map]
        apply List.map_congr_left
        intro r _
        simp only [Function.comp_apply, Rel.get]
        rw [hnd.idxOf_getElem k hkn, List.getD_eq_getElem?_getD, List.getElem?_map, List.getElem?_range hkn]
        rfl
  · intro c hc'
    obtain ⟨k, -, e⟩ := hmem c hc'
    rw [e, List.map_map]
    apply List.map_congr_left
    intro b _
    simp
  · constructor
    · intro hb c hc' p hp
      obtain ⟨k, -, e⟩ := hmem c hc'
      rw [e] at hp
      obtain ⟨b, hbm, rfl⟩ := List.mem_map.1 hp
      simpa using hb b hbm
    · rintro hS b hb rfl
      have hn0 : 0 < names.length := List.length_pos_iff.2 hne
      have h0 : t[0]? = some (t[0]'(by omega)) := List.getElem?_eq_getElem (by omega)
      refine hS _ (List.mem_of_getElem? h0) [] ?_ rfl
      rw [hc 0 hn0 _ h0]
      exact List.mem_map.2 ⟨[], hb, rfl⟩

theorem map_range_getD {γ β : Type} (l : List γ) (x : γ) (f : γ → β) : ((List.range l.length).map fun k => f (l.getD k x)) = l.map f := by
  apply List.ext_getElem
  · simp
  · intro k h1 h2
    have : k < l.length := by simpa using h1
    simp [List.getD_eq_getElem?_getD, List.getElem?_eq_getElem this]

/-- **C132** (imports of texts): the table has the requested rows of the file; its columns are cut at the same places; none of its pages is empty exactly if no page loses all its
rows to skipping. -/
theorem C132_import (mk : List Char → Nat → List Char) (hmk : ∀ n a b, mk n a = mk n b → a = b) (num : Nat → List Char) (d : Dialect) (o : ImportOpts) (ps : Nat) (hps : 0 < ps) (lines : List (List Char))
    (recs : List (List (List Char))) (h : Importable mk num d o lines recs) :
    ∃ table, importText mk num d o ps lines = .ok table ∧ Shows .none (mapTable textVal table) (fileRel mk num o recs) ∧ Aligned (mapTable textVal table) ∧
      (Solid (mapTable textVal table) ↔ KeptEach o ps recs) := by
  obtain ⟨table, blocks, h1, h2, h3, h4, -, h5, h6⟩ := import_pages mk num d o ps hps lines recs h.parse h.header h.wanted
  have hlen := uniqueNames_length mk (wantedNames mk num o recs)
  obtain ⟨s1, s2, s3⟩ := blocks_shows (uniqueNames mk (wantedNames mk num o recs)) (uniqueNames_distinct mk hmk _) (by
      intro e
      rw [e] at hlen
      exact h.some (List.length_eq_zero_iff.1 hlen.symm)) (mapTable textVal table) (by
      unfold mapTable
      rw [List.map_map]
      exact h2) blocks (fun k r => textVal (r.getD ((fileNames mk num o recs).idxOf ((wantedNames mk num o recs).getD k [])) [])) (by
      intro k hk col hcol
      unfold mapTable at hcol
      rw [List.getElem?_map] at hcol
      obtain ⟨c, hc, rfl⟩ := Option.map_eq_some_iff.1 hcol
      rw [hlen] at hk
      rw [h6 k hk c hc, List.map_map]
      apply List.map_congr_left
      intro b _
      simp only [Function.comp_apply, List.map_map]
      rfl)
  refine ⟨table, h1, ?_, s2, s3.symm.trans h5⟩
  rw [h4, hlen] at s1
  have := fun r : List (List Char) => map_range_getD (wantedNames mk num o recs) [] (fun c => textVal (r.getD ((fileNames mk num o recs).idxOf c) []))
  simp only [this] at s1
  exact s1

/-- no page of guessed types is empty -/
theorem typedCells_ne {inf : DType → List Char → Except Err InfVal} {cells : List (Option (List Char))} {vs : List InfVal} (h : typedCells inf cells = .ok vs) : vs ≠ [] := by
  rintro rfl
  unfold typedCells at h
  obtain ⟨x, hx, h⟩ := ebind_ok h
  obtain ⟨p, hp, h⟩ := ebind_ok h
  have := (mapM_rel h).length_eq
  have hc : cells = [] := List.length_eq_zero_iff.1 this
  subst hc
  have hx' : x.1 = newRank := by
    rw [List.map_nil] at hx
    injection hx with hx
    rw [← hx]
  rw [hx'] at hp
  have hno : (pageType newRank).isOk = false := by decide +kernel
  rw [hp] at hno
  cases hno

theorem forall₂_mem_right {β γ : Type} {R : β → γ → Prop} {l : List β} {m : List γ} (h : List.Forall₂ R l m) : ∀ y ∈ m, ∃ x ∈ l, R x y := by
  induction h with
  | nil => simp
  | cons h1 _ ih =>
    intro y hy
    rcases List.mem_cons.1 hy with rfl | hy
    · exact ⟨_, List.mem_cons_self, h1⟩
    · obtain ⟨x, hx, e⟩ := ih y hy
      exact ⟨x, List.mem_cons_of_mem _ hx, e⟩

theorem forall₂_lengths {β γ : Type} {R : β → γ → Prop} {l : List (List β)} {m : List (List γ)} (h : List.Forall₂ (List.Forall₂ R) l m) : l.map List.length = m.map List.length := by
  induction h with
  | nil => rfl
  | cons h1 _ ih => simp [h1.length_eq, ih]

/-- the pages of a column are the pages of the tasks -/
theorem typed_solid (pf : List Char → Option Rat) (mk : List Char → Nat → List Char) (num : Nat → List Char) (d : Dialect) (o : ImportOpts) (ps : Nat)
    (lines : List (List Char)) (table : List (List Char × List (List InfVal))) (h : importTyped pf mk num d o ps lines = .ok table) : ∀ c ∈ table, ∀ p ∈ c.2, p ≠ [] := by
  unfold importTyped importWith at h
  obtain ⟨offsets, ho, h⟩ := ebind_ok h
  dsimp only at h
  split at h
  · obtain ⟨first, hf, h⟩ := ebind_ok h
    split at h
    · obtain ⟨res, hres, h⟩ := ebind_ok h
      injection h with h
      subst h
      intro c hc p hp
      have hc2 := (List.of_mem_zip hc).2
      obtain ⟨x, -, e⟩ := List.mem_map.1 hc2
      rw [← e, List.find?_map] at hp
      cases hj : List.find? _ (List.range _) with
      | none => rw [hj] at hp; simp at hp
      | some j =>
        have hjlt := List.mem_range.1 (List.mem_of_find?_eq_some hj)
        rw [hj] at hp
        simp only [Option.map_some, Option.elim_some] at hp
        obtain ⟨pages, hpm, rfl⟩ := List.mem_map.1 hp
        obtain ⟨t, -, ht⟩ := mapM_mem _ _ _ hres pages hpm
        unfold taskPages at ht
        obtain ⟨recs, -, ht⟩ := ebind_ok ht
        have hl := (mapM_rel ht).length_eq
        rw [List.length_range] at hl
        have hjl : j < pages.length := by omega
        rw [List.getD_eq_getElem?_getD, List.getElem?_eq_getElem hjl, Option.getD_some]
        obtain ⟨i, -, hi⟩ := mapM_mem _ _ _ ht _ (List.getElem_mem hjl)
        exact typedCells_ne hi
    · cases h
  · cases h

/-- **C132** (imports with guessed types): if the import succeeds, the table has, for each requested row of the file, a row of readings of its fields; its columns are cut at the same places and none of its
pages is empty, whether rows are skipped or not. -/
theorem C132_typed (pf : List Char → Option Rat) (mk : List Char → Nat → List Char) (hmk : ∀ n a b, mk n a = mk n b → a = b) (num : Nat → List Char) (d : Dialect) (o : ImportOpts) (ps : Nat) (hps : 0 < ps)
    (lines : List (List Char)) (recs : List (List (List Char))) (h : Importable mk num d o lines recs) (table : List (List Char × List (List InfVal)))
    (ht : importTyped pf mk num d o ps lines = .ok table) (val : InfVal → SVal) :
    ∃ r : Rel (List Char) SVal, Shows .none (mapTable val table) r ∧ r.names = uniqueNames mk (wantedNames mk num o recs) ∧
      List.Forall₂ (fun rec row => List.Forall₂ (fun c v => ∃ ty x, inferAs pf ty (rec.getD ((fileNames mk num o recs).idxOf c) []) = .ok x ∧ v = val x) (wantedNames mk num o recs) row)
        (requestedRows o recs) r.rows ∧
      Aligned (mapTable val table) ∧ Solid (mapTable val table) := by
  obtain ⟨text, g1, g2⟩ := C129_shape pf mk num d o ps lines table ht
  obtain ⟨text', h1, h2, h3, h4⟩ := C132_import mk hmk num d o ps hps lines recs h
  rw [g1] at h1
  injection h1 with h1
  subst h1
  obtain ⟨i1, i2, i3⟩ := C129_import pf mk num d o ps hps lines recs h.parse h.header h.wanted table ht
  have hlen := uniqueNames_length mk (wantedNames mk num o recs)
  have hnames : (mapTable val table).map (·.1) = uniqueNames mk (wantedNames mk num o recs) := by
    unfold mapTable
    rw [List.map_map]
    exact i1
  have hne : uniqueNames mk (wantedNames mk num o recs) ≠ [] := by
    intro e
    rw [e] at hlen
    exact h.some (List.length_eq_zero_iff.1 hlen.symm)
  have hcol : ∀ k (hk : k < table.length), (mapTable val table)[k]? = some (table[k].1, table[k].2.map (·.map val)) := by
    intro k hk
    unfold mapTable
    rw [List.getElem?_map, List.getElem?_eq_getElem hk]
    rfl
  have hlent : table.length = (wantedNames mk num o recs).length := i2
  have hread : ∀ k (hk : k < table.length), List.Forall₂ (fun r v => ∃ t, inferAs pf t (r.getD ((fileNames mk num o recs).idxOf ((wantedNames mk num o recs).getD k [])) []) = .ok v) (requestedRows o recs) table[k].2.flatten :=
    fun k hk => (i3 k (by rw [← i2]; exact hk) _ (List.getElem?_eq_getElem hk)).1
  have hrect : Rect (mapTable val table) (requestedRows o recs).length := by
    intro c hc
    unfold mapTable at hc
    obtain ⟨a, ha, rfl⟩ := List.mem_map.1 hc
    obtain ⟨k, hk, rfl⟩ := List.getElem_of_mem ha
    rw [colLen_eq, ← List.map_flatten, List.length_map]
    exact (hread k hk).length_eq.symm
  have htne : mapTable val table ≠ [] := by
    intro e
    rw [e] at hnames
    exact hne hnames.symm
  have hrows := rows_tview SVal.none (mapTable val table) _ hrect htne
  refine ⟨⟨uniqueNames mk (wantedNames mk num o recs), (List.range (requestedRows o recs).length).map fun i => (tview (mapTable val table)).map fun c => c.2.getD i .none⟩,
    ⟨⟨hne, uniqueNames_distinct mk hmk _, ?_⟩, hnames, ?_, hrows⟩, rfl, ?_, ?_, ?_⟩
  · intro row hr
    obtain ⟨i, -, rfl⟩ := List.mem_map.1 hr
    rw [List.length_map, ← hnames, ← names_tview, List.length_map]
  · rw [List.length_map, List.length_range]
    exact hrect
  · rw [List.forall₂_iff_get]
    refine ⟨by simp, ?_⟩
    intro i hi hi'
    simp only [List.get_eq_getElem, List.getElem_map, List.getElem_range]
    rw [List.forall₂_iff_get]
    refine ⟨by simp [tview, mapTable, hlent], ?_⟩
    intro k hk hk'
    have hkt : k < table.length := by rw [hlent]; exact hk
    obtain ⟨hl, hget⟩ := List.forall₂_iff_get.1 (hread k hkt)
    have hi2 : i < table[k].2.flatten.length := by rw [← hl]; exact hi
    obtain ⟨ty, hty⟩ := hget i hi hi2
    refine ⟨ty, table[k].2.flatten[i], ?_, ?_⟩
    · simpa [List.getD_eq_getElem?_getD, List.getElem?_eq_getElem hk] using hty
    · simp only [List.get_eq_getElem, List.getElem_map, tview, mapTable]
      rw [show colIter (table[k].2.map (·.map val)) = table[k].2.flatten.map val by simp only [colIter, List.map_flatten, List.flatMap, List.map_map]; rfl]
      rw [List.getD_eq_getElem?_getD, List.getElem?_map, List.getElem?_eq_getElem hi2]
      rfl
  · obtain ⟨L, hL⟩ := h3
    refine ⟨L, ?_⟩
    intro c hc
    unfold mapTable at hc
    obtain ⟨b, hb, rfl⟩ := List.mem_map.1 hc
    obtain ⟨a, ha, -, hab⟩ := forall₂_mem_right g2 b hb
    have := hL _ (List.mem_map.2 ⟨a, ha, rfl⟩)
    rw [← this]
    simp only [List.map_map]
    have := forall₂_lengths hab
    simpa [Function.comp_def] using this.symm
  · intro c hc p hp
    unfold mapTable at hc
    obtain ⟨b, hb, rfl⟩ := List.mem_map.1 hc
    obtain ⟨q, hq, rfl⟩ := List.mem_map.1 hp
    simpa using typed_solid pf mk num d o ps lines table ht b hb q hq

/-! ## scripts -/

/-- **C132** partial: text files are imported as texts, no page losing all its rows to skipping, and a script works on the tables (its meaning given by C128): it succeeds and leaves tables with the rows which the same
script computes on the records of the files, for all page sizes.  Missing: imports where a page loses all its rows (`C132_fails`) and what is missing in `C128_partial`. -/
theorem C132_partial {K κ η φ σ : Type} [LinearOrder K] [DecidableEq η] (S : Surroundings (List Char) κ K η) (F : Folds (List Char) φ σ) (hmk : ∀ d a b, S.fresh d a = S.fresh d b → a = b)
    (hord : ∀ l v, v ∈ S.ord l ↔ v ∈ l) (hjord : ∀ l, (S.jord l).Perm l) (num : Nat → List Char) (ps ps' : Nat) (hps : 0 < ps) (hps' : 0 < ps') (d : Nat → Dialect) (o : Nat → ImportOpts)
    (lines : Nat → List (List Char)) (recs : Nat → List (List (List Char))) (hfile : ∀ i, Importable S.fresh num (d i) (o i) (lines i) (recs i)) (hskip : ∀ i, KeptEach (o i) ps (recs i))
    (script : List (Nat × Stmt (List Char) κ φ)) (hs : ScriptOk S F true (fun i => fileRel S.fresh num (o i) (recs i)) script) :
    ∃ tables : Nat → List (List Char × List (List (List Char))), (∀ i, importText S.fresh num (d i) (o i) ps (lines i) = .ok (tables i)) ∧
      ∃ db rels, scriptRun S F ps' (fun i => mapTable textVal (tables i)) script = .ok db ∧ ScriptGives S F (fun i => fileRel S.fresh num (o i) (recs i)) script rels ∧ ∀ i, Shows .none (db i) (rels i) := by
  have h := fun i => C132_import S.fresh hmk num (d i) (o i) ps hps (lines i) (recs i) (hfile i)
  choose tables h1 h2 h3 h4 using h
  obtain ⟨db, rels, g1, g2, g3⟩ := C128_partial S F hmk hord hjord ps' hps' script (fun i => mapTable textVal (tables i)) _ (fun i => ⟨h2 i, h3 i, (h4 i).2 (hskip i)⟩) hs
  exact ⟨tables, h1, db, rels, g1, g2, fun i => (g3 i).1⟩

/-- the full claim: rows may be skipped -/
def C132_statement : Prop :=
  ∀ (S : Surroundings (List Char) Unit Nat (List SVal)) (F : Folds (List Char) Unit Nat), (∀ d a b, S.fresh d a = S.fresh d b → a = b) → (∀ l v, v ∈ S.ord l ↔ v ∈ l) → (∀ l, (S.jord l).Perm l) →
    ∀ (num : Nat → List Char) (ps ps' : Nat), 0 < ps → 0 < ps' → ∀ (d : Nat → Dialect) (o : Nat → ImportOpts) (lines : Nat → List (List Char)) (recs : Nat → List (List (List Char))),
      (∀ i, Importable S.fresh num (d i) (o i) (lines i) (recs i)) → ∀ (script : List (Nat × Stmt (List Char) Unit Unit)), ScriptOk S F true (fun i => fileRel S.fresh num (o i) (recs i)) script →
        ∃ tables : Nat → List (List Char × List (List (List Char))), (∀ i, importText S.fresh num (d i) (o i) ps (lines i) = .ok (tables i)) ∧
          ∃ db rels, scriptRun S F ps' (fun i => mapTable textVal (tables i)) script = .ok db ∧ ScriptGives S F (fun i => fileRel S.fresh num (o i) (recs i)) script rels ∧ ∀ i, Shows .none (db i) (rels i)

/-- surroundings of examples, with names made unique as in the import -/
def plainlyText : Surroundings (List Char) Unit Nat (List SVal) := ⟨fun _ a b => decide (a ≠ b), String.length, id, id, id, mkNum⟩

/-- counting the rows of a group -/
def countingText : Folds (List Char) Unit Nat := ⟨fun _ => 0, fun _ n _ => .ok (n + 1), fun _ n => .ok (.i n), fun _ x => "Count(".toList ++ x ++ [')']⟩

/-- two files; the second ends with an empty row -/
def twoFiles : Nat → List (List Char)
  | 1 => ["a,b".toList, "2,x".toList, ",".toList]
  | _ => ["a,c".toList, "1,y".toList, "2,z".toList]

/-- their records -/
def twoRecs : Nat → List (List (List Char))
  | 1 => [["a".toList, "b".toList], ["2".toList, "x".toList], [[], []]]
  | _ => [["a".toList, "c".toList], ["1".toList, "y".toList], ["2".toList, "z".toList]]

/-- a left join of the two files -/
def joinFiles : List (Nat × Stmt (List Char) Unit Unit) := [(2, .left ["a".toList] ["a".toList] ["a".toList, "c".toList] ["b".toList] (.table 0) (.table 1))]

theorem twoNames (i : Nat) : wantedNames mkNum numText {} (twoRecs i) = fileNames mkNum numText {} (twoRecs i) ∧ (i ≠ 1 → fileNames mkNum numText {} (twoRecs i) = ["a".toList, "c".toList]) ∧
    (i = 1 → fileNames mkNum numText {} (twoRecs i) = ["a".toList, "b".toList]) := by
  refine ⟨rfl, fun h => ?_, fun h => ?_⟩
  · rw [show twoRecs i = twoRecs 0 by unfold twoRecs; split <;> simp_all]
    decide +kernel
  · subst h
    decide +kernel

theorem twoFiles_importable (skip : Option Bool) (i : Nat) : Importable mkNum numText {} { skip := skip } (twoFiles i) (twoRecs i) := by
  have hn := twoNames i
  have hne : wantedNames mkNum numText {} (twoRecs i) ≠ [] := by
    by_cases h : i = 1
    · rw [hn.1, hn.2.2 h]; simp
    · rw [hn.1, hn.2.1 h]; simp
  refine ⟨?_, ?_, fun c hc => hc, hne⟩
  · by_cases h : i = 1
    · subst h
      decide +kernel
    · rw [show twoFiles i = twoFiles 0 by unfold twoFiles; split <;> simp_all, show twoRecs i = twoRecs 0 by unfold twoRecs; split <;> simp_all]
      decide +kernel
  · unfold twoRecs
    split <;> simp

theorem joinFiles_ok (skip : Option Bool) : ScriptOk plainlyText countingText true (fun i => fileRel mkNum numText { skip := skip } (twoRecs i)) joinFiles := by
  refine ⟨⟨trivial, trivial, ?_⟩, fun _ _ => trivial⟩
  rintro a b rfl rfl
  have h0 : (fileRel mkNum numText { skip := skip } (twoRecs 0)).names = ["a".toList, "c".toList] := by
    show uniqueNames mkNum (wantedNames mkNum numText {} (twoRecs 0)) = _
    decide +kernel
  have h1 : (fileRel mkNum numText { skip := skip } (twoRecs 1)).names = ["a".toList, "b".toList] := by
    show uniqueNames mkNum (wantedNames mkNum numText {} (twoRecs 1)) = _
    decide +kernel
  constructor
  · rw [h0]; decide
  · rw [h1]; decide
  · decide
  · decide
  · rw [h0]; decide
  · rw [h1]; decide
  · decide
  · decide
  · decide

theorem mkNum_inj (n : List Char) (a b : Nat) (h : mkNum n a = mkNum n b) : a = b := by
  have h' := List.append_cancel_left h
  injection h' with _ h'
  exact Nat.repr_injective (String.toList_inj.1 h')

/-- the left join of the imported tables fails when the empty row is skipped and has a page of its own: IndexError -/
theorem C132_effect (t : Nat → List (List Char × List (List (List Char)))) (ht : ∀ i, importText mkNum numText {} { skip := some true } 1 (twoFiles i) = .ok (t i)) :
    (scriptRun plainlyText countingText 1 (fun i => mapTable textVal (t i)) joinFiles).map (fun _ => ()) = .error .index := by
  have h0 : importText mkNum numText {} { skip := some true } 1 (twoFiles 0) = .ok [("a".toList, [["1".toList], ["2".toList]]), ("c".toList, [["y".toList], ["z".toList]])] := by decide +kernel
  have h1 : importText mkNum numText {} { skip := some true } 1 (twoFiles 1) = .ok [("a".toList, [["2".toList], []]), ("b".toList, [["x".toList], []])] := by decide +kernel
  have e0 := ht 0
  have e1 := ht 1
  rw [h0] at e0
  rw [h1] at e1
  injection e0 with e0
  injection e1 with e1
  have hj : tblJoin 1 mkNum id SVal.none JoinKind.left (mapTable textVal [("a".toList, [["1".toList], ["2".toList]]), ("c".toList, [["y".toList], ["z".toList]])])
      (mapTable textVal [("a".toList, [["2".toList], []]), ("b".toList, [["x".toList], []])]) ["a".toList] ["a".toList] ["a".toList, "c".toList] ["b".toList] = .error .index := by decide +kernel
  simp only [scriptRun, joinFiles, Stmt.run, Query.run, ← e0, ← e1, bind, Except.bind, plainlyText, hj]
  rfl

theorem C132_fails : ¬ C132_statement := by
  intro h
  obtain ⟨t, ht, db, rels, h1, -⟩ := h plainlyText countingText (fun d a b => mkNum_inj d a b) (fun _ _ => Iff.rfl) (fun l => List.Perm.refl l) numText 1 1 (by omega) (by omega) (fun _ => {})
    (fun _ => { skip := some true }) twoFiles twoRecs (twoFiles_importable _) joinFiles (joinFiles_ok _)
  have := C132_effect t ht
  rw [h1] at this
  cases this

/-- without skipping, the same script gives three columns and both rows -/
example : ∃ t : Nat → _, (∀ i, importText mkNum numText {} { skip := none } 1 (twoFiles i) = .ok (t i)) ∧
    ∃ db rels, scriptRun plainlyText countingText 1 (fun i => mapTable textVal (t i)) joinFiles = .ok db ∧
      ScriptGives plainlyText countingText (fun i => fileRel mkNum numText { skip := none } (twoRecs i)) joinFiles rels ∧ ∀ i, Shows .none (db i) (rels i) :=
  C132_partial plainlyText countingText (fun d a b => mkNum_inj d a b) (fun _ _ => Iff.rfl) (fun l => List.Perm.refl l) numText 1 1 (by omega) (by omega) (fun _ => {})
    (fun _ => { skip := none }) twoFiles twoRecs (twoFiles_importable _) (fun _ => kept_of_none _ rfl 1 (by omega) _) joinFiles (joinFiles_ok _)

/-- with pages of two rows no page loses all its rows, though the empty row is skipped -/
theorem twoRecs_kept (i : Nat) : KeptEach { skip := some true } 2 (twoRecs i) := by
  have hrow : ∀ i, (bodyRows { skip := some true } (twoRecs i)).length = 2 ∧ ∃ r ∈ (bodyRows { skip := some true } (twoRecs i)).take 2, checkSkip (some true) r = false := by
    intro i
    unfold twoRecs
    split <;> exact ⟨rfl, by decide +kernel⟩
  intro k hk
  rw [(hrow i).1] at hk
  obtain rfl : k = 0 := by omega
  exact (hrow i).2

/-- so the script succeeds when they are imported with skipping in pages of two rows -/
example : ∃ t : Nat → _, (∀ i, importText mkNum numText {} { skip := some true } 2 (twoFiles i) = .ok (t i)) ∧
    ∃ db rels, scriptRun plainlyText countingText 1 (fun i => mapTable textVal (t i)) joinFiles = .ok db ∧
      ScriptGives plainlyText countingText (fun i => fileRel mkNum numText { skip := some true } (twoRecs i)) joinFiles rels ∧ ∀ i, Shows .none (db i) (rels i) :=
  C132_partial plainlyText countingText (fun d a b => mkNum_inj d a b) (fun _ _ => Iff.rfl) (fun l => List.Perm.refl l) numText 2 1 (by omega) (by omega) (fun _ => {})
    (fun _ => { skip := some true }) twoFiles twoRecs (twoFiles_importable _) twoRecs_kept joinFiles (joinFiles_ok _)

/-- an import with guessed types meets the hypotheses of `C132_typed` -/
example : Importable mkNum numText {} { skip := some true } (twoFiles 1) (twoRecs 1) ∧
    importTyped noFloat mkNum numText {} { skip := some true } 2 (twoFiles 1) = .ok [("a".toList, [[.int 2]]), ("b".toList, [[.str "x".toList]])] :=
  ⟨twoFiles_importable _ 1, by decide +kernel⟩

end Tablite
