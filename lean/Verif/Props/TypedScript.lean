import Verif.Props.FilesToFile
/-!
# C142: scripts on files imported with guessed types
-/
namespace Tablite
set_option linter.unusedSectionVars false

/-- Spec: what a text is read as in a column of the type `t` -/
def readAs (pf : List Char → Option Rat) (t : DType) (s : List Char) : InfVal :=
  match inferAs pf t s with
  | .ok v => v
  | .error _ => .none

/-- Spec: the requested rows of a file, every field read as the type of its column; `ty` gives the types of the fields of the file -/
def typedRel (pf : List Char → Option Rat) (mk : List Char → Nat → List Char) (num : Nat → List Char) (o : ImportOpts) (ty : Nat → DType) (val : InfVal → SVal)
    (recs : List (List (List Char))) : Rel (List Char) SVal :=
  ⟨uniqueNames mk (wantedNames mk num o recs),
    (requestedRows o recs).map fun r => (wantedNames mk num o recs).map fun c =>
      val (readAs pf (ty ((fileNames mk num o recs).idxOf c)) (r.getD ((fileNames mk num o recs).idxOf c) []))⟩

/-- every wanted column is of one type: its texts are read as this type and as no type tried before it, or - unless the type is text - stand for no value -/
def OneType (pf : List Char → Option Rat) (mk : List Char → Nat → List Char) (num : Nat → List Char) (o : ImportOpts) (ty : Nat → DType) (recs : List (List (List Char))) : Prop :=
  ∀ i, (fileNames mk num o recs).getD i [] ∈ wantedNames mk num o recs → ty i ≠ .none ∧ ∀ r ∈ requestedRows o recs,
    ((∃ v, inferAs pf (ty i) (r.getD i []) = .ok v) ∧ ∀ u ∈ DType.all.takeWhile (· ≠ ty i), inferAs pf u (r.getD i []) = .error .value) ∨
    (ty i ≠ .string ∧ inferNone (r.getD i []) = .ok .none ∧ inferAs pf (ty i) (r.getD i []) = .error .value)

/-- a table has the rows of a relation if each of its columns has the values at the same place of the rows -/
theorem shows_of_columns {ν α : Type} [DecidableEq ν] [DecidableEq α] (nul : α) (t : Tbl ν α) (r : Rel ν α) (hw : r.WF) (hn : t.map (·.1) = r.names)
    (hc : ∀ k c, t[k]? = some c → colIter c.2 = r.rows.map fun row => row.getD k nul) : Shows nul t r := by
  refine (shows_iff _ _ _).2 ⟨hw, ?_⟩
  have hl : t.length = r.names.length := by rw [← hn, List.length_map]
  apply List.ext_getElem?
  intro k
  unfold tview Rel.cols
  rw [List.getElem?_map, List.getElem?_map]
  by_cases hk : k < t.length
  · have ht : t[k]? = some t[k] := List.getElem?_eq_getElem hk
    have hkn : k < r.names.length := by omega
    have hname : (t[k]).1 = r.names[k] := by
      have e := congrArg (·[k]?) hn
      simp only [List.getElem?_map, ht, Option.map_some, List.getElem?_eq_getElem hkn, Option.some.injEq] at e
      exact e
    rw [ht, List.getElem?_eq_getElem hkn, Option.map_some, Option.map_some, hc k _ ht, hname]
    simp only [Option.some.injEq, Prod.mk.injEq, true_and]
    apply List.map_congr_left
    intro row _
    unfold Rel.get
    rw [hw.2.1.idxOf_getElem k hkn]
  · rw [List.getElem?_eq_none (by omega), List.getElem?_eq_none (by omega)]
    rfl

/-- **C142** (imports): a file whose columns are of one type each, imported with guessed types, gives for every page size a table with the requested rows, every field read as the type of its column. -/
theorem C142_import (pf : List Char → Option Rat) (mk : List Char → Nat → List Char) (hmk : ∀ n a b, mk n a = mk n b → a = b) (num : Nat → List Char) (d : Dialect) (o : ImportOpts) (hskip : o.skip = none)
    (lines : List (List Char)) (recs : List (List (List Char))) (h : Importable mk num d o lines recs) (ty : Nat → DType) (hty : OneType pf mk num o ty recs) (val : InfVal → SVal) (ps : Nat) (hps : 0 < ps) :
    ∃ table, importTyped pf mk num d o ps lines = .ok table ∧ Shows .none (mapTable val table) (typedRel pf mk num o ty val recs) ∧ Aligned (mapTable val table) ∧ Solid (mapTable val table) := by
  obtain ⟨flat, hn, hl, hc, himp⟩ := C130_partial pf mk num d o lines recs h.parse h.header hskip h.wanted ty hty
  have hi := himp ps hps
  cases ht : importTyped pf mk num d o ps lines with
  | error e => rw [ht] at hi; cases hi
  | ok table =>
    rw [ht] at hi
    have hflat : flatTable table = flat := by injection hi
    subst hflat
    have hn : (flatTable table).map (·.1) = uniqueNames mk (wantedNames mk num o recs) := hn
    obtain ⟨r, h1, h2, -, h4, h5⟩ := C132_typed pf mk hmk num d o ps hps lines recs h table ht val
    refine ⟨table, rfl, shows_of_columns _ _ _ ⟨?_, uniqueNames_distinct mk hmk _, ?_⟩ ?_ ?_, h4, h5⟩
    · show uniqueNames mk _ ≠ []
      rw [← h2]
      exact h1.1.1
    · intro row hrow
      obtain ⟨rec, -, rfl⟩ := List.mem_map.1 hrow
      rw [List.length_map]
      exact (uniqueNames_length mk _).symm
    · rw [h1.2.1, h2]
      rfl
    · intro k c hk
      unfold mapTable at hk
      rw [List.getElem?_map] at hk
      cases htk : table[k]? with
      | none => rw [htk] at hk; cases hk
      | some col =>
        rw [htk, Option.map_some, Option.some.injEq] at hk
        subst hk
        have hf : (flatTable table)[k]? = some (col.1, col.2.flatten) := by
          unfold flatTable
          rw [List.getElem?_map, htk]
          rfl
        have hkw : k < (wantedNames mk num o recs).length := by
          have e := (List.getElem?_eq_some_iff.1 hf).1
          rw [hl] at e
          exact e
        have hcol := hc k hkw _ hf
        have hit : colIter (col.2.map (·.map val)) = col.2.flatten.map val := by
          simp only [colIter, List.map_flatten, List.flatMap, List.map_map]
          rfl
        show colIter (col.2.map (·.map val)) = ((requestedRows o recs).map _).map _
        rw [hit, List.map_map]
        have hw : (o.columns.getD (fieldNames mk num o.headers ((recs.getD o.headerRow []).map stripEscape))).getD k [] = (wantedNames mk num o recs)[k] := by
          show (wantedNames mk num o recs).getD k [] = _
          rw [List.getD_eq_getElem?_getD, List.getElem?_eq_getElem hkw]
          rfl
        rw [hw] at hcol
        dsimp only at hcol
        generalize col.2.flatten = vs at hcol
        generalize requestedRows o recs = rs at hcol
        clear hc hi himp h4 h5 h1 hf hit hty
        induction hcol with
        | nil => rfl
        | @cons rec v rs vs hv _ ih =>
          rw [List.map_cons, List.map_cons, ih]
          congr 1
          simp only [Function.comp]
          rw [List.getD_eq_getElem?_getD, List.getElem?_map, List.getElem?_eq_getElem hkw]
          show val v = val _
          congr 1
          unfold readAs fileNames
          rcases hv with hv | ⟨hv, hv'⟩
          · rw [hv]
          · rw [hv, hv']

/-- **C142** (partial): files whose columns are of one type each are imported with guessed types; scripts work on the tables in sessions, any tables being saved and loaded between them.  Then there are rows
which all the scripts compute on the typed records of the files, and the tables at the end have these rows, whatever the page sizes of the imports and of the sessions; so does the exported text.  Missing: columns
of several types, whose values depend on the page size (`C142_fails`), and what is missing in `C140_partial`. -/
theorem C142_partial {K κ η φ σ ρ : Type} [LinearOrder K] [DecidableEq η] [DecidableEq ρ] (S : Surroundings (List Char) κ K η) (F : Folds (List Char) φ σ) (hmk : ∀ d a b, S.fresh d a = S.fresh d b → a = b)
    (hord : ∀ l v, v ∈ S.ord l ↔ v ∈ l) (hjord : ∀ l, (S.jord l).Perm l) (yml : ρ) (ord : List (ρ × List SVal) → List (ρ × List SVal)) (hz : ∀ l x, x ∈ ord l ↔ x ∈ l)
    (pf : List Char → Option Rat) (num : Nat → List Char) (ps : Nat) (hps : 0 < ps) (d : Nat → Dialect) (o : Nat → ImportOpts) (hskip : ∀ i, (o i).skip = none)
    (lines : Nat → List (List Char)) (recs : Nat → List (List (List Char))) (hfile : ∀ i, Importable S.fresh num (d i) (o i) (lines i) (recs i))
    (ty : Nat → Nat → DType) (hty : ∀ i, OneType pf S.fresh num (o i) (ty i) (recs i)) (val : InfVal → SVal)
    (sessions : List (Nat × List (Nat × Stmt (List Char) κ φ))) (hpss : ∀ s ∈ sessions, 0 < s.1)
    (hs : ScriptOk S F true (fun i => typedRel pf S.fresh num (o i) (ty i) val (recs i)) (sessions.flatMap (·.2))) :
    ∃ tables : Nat → List (List Char × List (List InfVal)), (∀ i, importTyped pf S.fresh num (d i) (o i) ps (lines i) = .ok (tables i)) ∧
      ∀ out, Sessions S F yml ord (fun i => mapTable val (tables i)) sessions out →
        ∃ rels, ScriptGives S F (fun i => typedRel pf S.fresh num (o i) (ty i) val (recs i)) (sessions.flatMap (·.2)) rels ∧
          ∀ i, Shows .none (out i) (rels i) ∧ ∀ txt delim, textWriter txt .none delim (out i) = .ok (relText txt delim (rels i)) := by
  have h := fun i => C142_import pf S.fresh hmk num (d i) (o i) (hskip i) (lines i) (recs i) (hfile i) (ty i) (hty i) val ps hps
  choose tables h1 h2 h3 h4 using h
  refine ⟨tables, h1, fun out hrun => ?_⟩
  obtain ⟨rels, g1, g2⟩ := C140_partial S F hmk hord hjord yml ord hz sessions hpss _ out _ (fun i => ⟨h2 i, h3 i, h4 i⟩) hs hrun
  exact ⟨rels, g1, fun i => ⟨g2 i, fun txt delim => C141_export txt delim _ _ (g2 i)⟩⟩

/-- the full claim about imports: the rows do not depend on the page size -/
def C142_statement : Prop :=
  ∀ (pf : List Char → Option Rat) (num : Nat → List Char) (d : Dialect) (o : ImportOpts) (lines : List (List Char)) (recs : List (List (List Char))), Importable mkNum num d o lines recs →
    ∀ val : InfVal → SVal, ∃ r, ∀ ps, 0 < ps → ∃ table, importTyped pf mkNum num d o ps lines = .ok table ∧ Shows .none (mapTable val table) r

/-- texts and missing values kept apart -/
def plainVal : InfVal → SVal
  | .str s => .str (String.ofList s)
  | .int v => .i v
  | _ => .none

/-- an empty field is an empty text next to a text and no value in a page of its own -/
theorem C142_fails : ¬ C142_statement := by
  intro h
  obtain ⟨r, hr⟩ := h noFloat numText {} {} ["a,b".toList, "x,1".toList, ",2".toList] [["a".toList, "b".toList], ["x".toList, "1".toList], [[], "2".toList]]
    ⟨by decide +kernel, by decide +kernel, by decide +kernel, by decide +kernel⟩ plainVal
  obtain ⟨t1, e1, s1⟩ := hr 1 (by omega)
  obtain ⟨t2, e2, s2⟩ := hr 2 (by omega)
  have v1 := ((shows_iff _ _ _).1 s1).2
  have v2 := ((shows_iff _ _ _).1 s2).2
  rw [← v2] at v1
  have x1 : importTyped noFloat mkNum numText {} {} 1 ["a,b".toList, "x,1".toList, ",2".toList] = .ok [("a".toList, [[.str "x".toList], [.none]]), ("b".toList, [[.int 1], [.int 2]])] := by decide +kernel
  have x2 : importTyped noFloat mkNum numText {} {} 2 ["a,b".toList, "x,1".toList, ",2".toList] = .ok [("a".toList, [[.str "x".toList, .str []]]), ("b".toList, [[.int 1, .int 2]])] := by decide +kernel
  rw [x1] at e1
  rw [x2] at e2
  cases e1
  cases e2
  revert v1
  decide +kernel

/-- numbers in the first column, texts in the second -/
def numsAndTexts (i : Nat) : DType := if i = 0 then .intSimple else .string

theorem twoFiles_types : OneType noFloat mkNum numText { skip := none } numsAndTexts (twoRecs 0) := by
  intro i hi
  have hlt : i < 2 := by
    by_contra hc
    revert hi
    have : ∃ n, i = n + 2 := ⟨i - 2, by omega⟩
    obtain ⟨n, rfl⟩ := this
    show ([] : List Char) ∈ _ → False
    decide +kernel
  have hreq : requestedRows { skip := none } (twoRecs 0) = [["1".toList, "y".toList], ["2".toList, "z".toList]] := by decide +kernel
  rw [hreq]
  have hcases : i = 0 ∨ i = 1 := by omega
  rcases hcases with rfl | rfl
  · refine ⟨by decide, fun r hr => ?_⟩
    rcases List.mem_cons.1 hr with rfl | hr
    · exact Or.inl ⟨⟨.int 1, by decide +kernel⟩, by decide +kernel⟩
    · rw [List.mem_singleton.1 hr]
      exact Or.inl ⟨⟨.int 2, by decide +kernel⟩, by decide +kernel⟩
  · refine ⟨by decide, fun r hr => Or.inl ⟨⟨.str (r.getD 1 []), rfl⟩, ?_⟩⟩
    revert r
    decide +kernel

/-- a left join of a file with itself -/
def joinTyped : List (Nat × Stmt (List Char) Unit Unit) := [(2, .left ["a".toList] ["a".toList] ["a".toList, "c".toList] ["c".toList] (.table 0) (.table 1))]

/-- a file of numbers and texts, imported page by page with guessed types and joined with itself: the hypotheses of `C142_partial` are met -/
example : ∃ tables : Nat → List (List Char × List (List InfVal)), (∀ i, importTyped noFloat mkNum numText {} { skip := none } 1 (twoFiles 0) = .ok (tables i)) ∧
    ∀ out, Sessions plainlyText countingText (none : Option (List SVal)) id (fun i => mapTable plainVal (tables i)) [(1, joinTyped)] out →
      ∃ rels, ScriptGives plainlyText countingText (fun _ => typedRel noFloat mkNum numText { skip := none } numsAndTexts plainVal (twoRecs 0)) joinTyped rels ∧
        ∀ i, Shows .none (out i) (rels i) ∧ ∀ txt delim, textWriter txt .none delim (out i) = .ok (relText txt delim (rels i)) := by
  refine C142_partial plainlyText countingText (fun d a b => mkNum_inj d a b) (fun _ _ => Iff.rfl) (fun l => List.Perm.refl l) (none : Option (List SVal)) id (fun _ _ => Iff.rfl) noFloat numText 1
    (by omega) (fun _ => {}) (fun _ => { skip := none }) (fun _ => rfl) (fun _ => twoFiles 0) (fun _ => twoRecs 0) (fun _ => twoFiles_importable none 0) (fun _ => numsAndTexts) (fun _ => twoFiles_types)
    plainVal [(1, joinTyped)] (by simp) ?_
  refine ⟨⟨trivial, trivial, ?_⟩, fun _ _ => trivial⟩
  rintro a b rfl rfl
  have h0 : (typedRel noFloat mkNum numText { skip := none } numsAndTexts plainVal (twoRecs 0)).names = ["a".toList, "c".toList] := by
    show uniqueNames mkNum (wantedNames mkNum numText {} (twoRecs 0)) = _
    decide +kernel
  constructor
  · show _ ⊆ (typedRel noFloat mkNum numText { skip := none } numsAndTexts plainVal (twoRecs 0)).names
    rw [h0]; decide
  all_goals decide

end Tablite
