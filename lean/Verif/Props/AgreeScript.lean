import Verif.Props.SkipExact
import Verif.Props.TypedScript
/-!
# C130, C142: imports and scripts on files with columns of several types
-/
namespace Tablite
set_option linter.unusedSectionVars false

/-- Spec: the requested rows of a file, every field read on its own -/
def aloneRel (pf : List Char → Option Rat) (mk : List Char → Nat → List Char) (num : Nat → List Char) (o : ImportOpts) (val : InfVal → SVal) (recs : List (List (List Char))) : Rel (List Char) SVal :=
  ⟨uniqueNames mk (wantedNames mk num o recs),
    (requestedRows o recs).map fun r => (wantedNames mk num o recs).map fun c => val (aloneVal pf (r.getD ((fileNames mk num o recs).idxOf c) []))⟩

/-- the texts of a field of a file -/
def fieldTexts (o : ImportOpts) (recs : List (List (List Char))) (i : Nat) (s : List Char) : Prop := ∃ r ∈ requestedRows o recs, s = r.getD i []

/-- the texts of every wanted column can be read and agree -/
def ColumnsAgree (pf : List Char → Option Rat) (mk : List Char → Nat → List Char) (num : Nat → List Char) (o : ImportOpts) (recs : List (List (List Char))) : Prop :=
  ∀ i, (fileNames mk num o recs).getD i [] ∈ wantedNames mk num o recs → (∀ s, fieldTexts o recs i s → ∃ t, TakenAs pf t s) ∧ TextsAgree pf (fieldTexts o recs i)

theorem taken_unique {pf : List Char → Option Rat} {t u : DType} {s : List Char} (h : TakenAs pf t s) (h' : TakenAs pf u s) : t = u := by
  rcases Nat.lt_trichotomy (typePlace t) (typePlace u) with hlt | heq | hgt
  · have := h'.2 t hlt
    obtain ⟨⟨v, hv⟩, _⟩ := h
    rw [hv] at this; cases this
  · revert heq
    cases t <;> cases u <;> first | (intro _; rfl) | (intro h; exact absurd h (by decide))
  · have := h.2 u hgt
    obtain ⟨⟨v, hv⟩, _⟩ := h'
    rw [hv] at this; cases this

/-- columns of one type agree -/
theorem oneType_agree (pf : List Char → Option Rat) (mk : List Char → Nat → List Char) (num : Nat → List Char) (o : ImportOpts) (ty : Nat → DType) (recs : List (List (List Char)))
    (h : OneType pf mk num o ty recs) : ColumnsAgree pf mk num o recs := by
  intro i hi
  obtain ⟨hn, hr⟩ := h i hi
  generalize ty i = t at hn hr
  have hcase : ∀ s, fieldTexts o recs i s → TakenAs pf t s ∨ (TakenAs pf .none s ∧ inferAs pf t s = .error .value) := by
    rintro s ⟨r, hrm, rfl⟩
    rcases hr r hrm with ⟨h1, h2⟩ | ⟨-, h2, h3⟩
    · refine .inl ⟨h1, fun u hu => h2 u ?_⟩
      revert hu
      cases t <;> cases u <;> decide
    · exact .inr ⟨⟨⟨_, h2⟩, fun u hu => by revert hu; cases u <;> exact fun h => absurd h (by decide)⟩, h3⟩
  refine ⟨fun s hs => ?_, ?_⟩
  · rcases hcase s hs with h | h
    exacts [⟨_, h⟩, ⟨_, h.1⟩]
  · intro s s' u u' hs hs' hu hu'
    have hplace : typePlace .none < typePlace t := by revert hn; cases t <;> decide
    have hcl : ¬ Clash t t ∧ ¬ Clash t .none ∧ ¬ Clash .none t := by cases t <;> decide
    rcases hcase s hs with a | ⟨a, a'⟩ <;> rcases hcase s' hs' with b | ⟨b, b'⟩ <;> cases taken_unique hu a <;> cases taken_unique hu' b
    · exact ⟨.inr rfl, hcl.1⟩
    · exact ⟨.inl (a.2 _ hplace), hcl.2.1⟩
    · exact ⟨.inl a', hcl.2.2⟩
    · exact ⟨.inr rfl, by decide⟩

/-- one table for all page sizes, column by column -/
theorem agree_import (pf : List Char → Option Rat) (mk : List Char → Nat → List Char) (num : Nat → List Char) (d : Dialect) (o : ImportOpts)
    (lines : List (List Char)) (recs : List (List (List Char))) (h : Importable mk num d o lines recs) (hA : ColumnsAgree pf mk num o recs) (ps : Nat) (hps : 0 < ps) (hkeep : KeptEach o ps recs) :
    ∃ table, importTyped pf mk num d o ps lines = .ok table ∧ table.map (·.1) = uniqueNames mk (wantedNames mk num o recs) ∧ table.length = (wantedNames mk num o recs).length ∧
      ∀ k, k < (wantedNames mk num o recs).length → ∀ col, table[k]? = some col →
        col.2.flatten = (requestedRows o recs).map fun r => aloneVal pf (r.getD ((fileNames mk num o recs).idxOf ((wantedNames mk num o recs).getD k [])) []) := by
  exact importWith_kept (typedCells (inferAs pf)) (fun _ => aloneVal pf) mk num d o ps hps lines recs h.parse h.header hkeep h.wanted (by
    intro i hi cells hne hc
    obtain ⟨hT, hag⟩ := hA i hi
    exact typedCells_agree pf (fieldTexts o recs i) hag hT cells hne hc)

/-- **C130** (partial, several types): if the texts of every wanted column agree, see `C130_exact`, an import with guessed types gives the same table for every page size: every text is read as it is on its
own.  Rows may be skipped, if no page loses all its rows, see `C130_skip_exact`.
Missing: columns whose texts do not agree. -/
theorem C130_agree_partial (pf : List Char → Option Rat) (mk : List Char → Nat → List Char) (num : Nat → List Char) (d : Dialect) (o : ImportOpts)
    (lines : List (List Char)) (recs : List (List (List Char))) (h : Importable mk num d o lines recs) (hA : ColumnsAgree pf mk num o recs) (ps : Nat) (hps : 0 < ps) (hkeep : KeptEach o ps recs) :
    (importTyped pf mk num d o ps lines).map flatTable = .ok ((uniqueNames mk (wantedNames mk num o recs)).zip
      ((wantedNames mk num o recs).map fun c => (requestedRows o recs).map fun r => aloneVal pf (r.getD ((fileNames mk num o recs).idxOf c) []))) := by
  obtain ⟨table, h1, h2, h3, h4⟩ := agree_import pf mk num d o lines recs h hA ps hps hkeep
  rw [h1]
  show Except.ok (flatTable table) = _
  congr 1
  have hul := uniqueNames_length mk (wantedNames mk num o recs)
  apply List.ext_getElem?
  intro k
  unfold flatTable
  by_cases hk : k < table.length
  · have hkw : k < (wantedNames mk num o recs).length := by omega
    have hku : k < (uniqueNames mk (wantedNames mk num o recs)).length := by omega
    have hname : (table[k]).1 = (uniqueNames mk (wantedNames mk num o recs))[k] := by
      have e := congrArg (·[k]?) h2
      simp only [List.getElem?_map, List.getElem?_eq_getElem hk, Option.map_some, List.getElem?_eq_getElem hku, Option.some.injEq] at e
      exact e
    rw [List.getElem?_map, List.getElem?_eq_getElem hk, Option.map_some, List.getElem?_eq_getElem (by simp; omega), List.getElem_zip, List.getElem_map, hname,
      h4 k hkw _ (List.getElem?_eq_getElem hk), List.getD_eq_getElem?_getD, List.getElem?_eq_getElem hkw]
    rfl
  · rw [List.getElem?_eq_none (by simp; omega), List.getElem?_eq_none (by simp; omega)]

/-- **C130** (exact, skipped rows): if the texts of every wanted column agree, an import with guessed types that skips rows gives the requested rows exactly if none of the pages the file is cut into loses
all its rows; otherwise there is no table at all, though every row that is wanted could be read -/
theorem C130_skip_exact (pf : List Char → Option Rat) (mk : List Char → Nat → List Char) (num : Nat → List Char) (d : Dialect) (o : ImportOpts)
    (lines : List (List Char)) (recs : List (List (List Char))) (h : Importable mk num d o lines recs) (hA : ColumnsAgree pf mk num o recs) (ps : Nat) (hps : 0 < ps) :
    ((importTyped pf mk num d o ps lines).map flatTable = .ok ((uniqueNames mk (wantedNames mk num o recs)).zip
      ((wantedNames mk num o recs).map fun c => (requestedRows o recs).map fun r => aloneVal pf (r.getD ((fileNames mk num o recs).idxOf c) []))) ↔ KeptEach o ps recs) ∧
    (¬ KeptEach o ps recs → ∃ e, importTyped pf mk num d o ps lines = .error e) := by
  have hf : ¬ KeptEach o ps recs → ∃ e, importTyped pf mk num d o ps lines = .error e := by
    intro hn
    cases hi : importTyped pf mk num d o ps lines with
    | error e => exact ⟨e, rfl⟩
    | ok table => exact absurd (importWith_skipped _ (fun v hv => typedCells_empty hv) mk num d o ps hps lines recs h table hi) hn
  refine ⟨⟨fun he => ?_, C130_agree_partial pf mk num d o lines recs h hA ps hps⟩, hf⟩
  by_contra hn
  obtain ⟨e, hi⟩ := hf hn
  rw [hi] at he
  cases he

/-- **C142** (imports): a file whose columns agree, imported with guessed types, gives for every page size a table with the requested rows, every field read on its own -/
theorem C142_agree (pf : List Char → Option Rat) (mk : List Char → Nat → List Char) (hmk : ∀ n a b, mk n a = mk n b → a = b) (num : Nat → List Char) (d : Dialect) (o : ImportOpts)
    (lines : List (List Char)) (recs : List (List (List Char))) (h : Importable mk num d o lines recs) (hA : ColumnsAgree pf mk num o recs) (val : InfVal → SVal) (ps : Nat) (hps : 0 < ps) (hkeep : KeptEach o ps recs) :
    ∃ table, importTyped pf mk num d o ps lines = .ok table ∧ Shows .none (mapTable val table) (aloneRel pf mk num o val recs) ∧ Aligned (mapTable val table) ∧ Solid (mapTable val table) := by
  obtain ⟨table, ht, hn, hl, hc⟩ := agree_import pf mk num d o lines recs h hA ps hps hkeep
  obtain ⟨r, h1, h2, -, h4, h5⟩ := C132_typed pf mk hmk num d o ps hps lines recs h table ht val
  refine ⟨table, ht, shows_of_columns _ _ _ ⟨?_, uniqueNames_distinct mk hmk _, ?_⟩ ?_ ?_, h4, h5⟩
  · show uniqueNames mk _ ≠ []
    rw [← h2]
    exact h1.1.1
  · intro row hrow
    obtain ⟨rec, -, rfl⟩ := List.mem_map.1 hrow
    rw [List.length_map]
    exact (uniqueNames_length mk _).symm
  · rw [h1.2.1, h2]
    rfl
  · intro k c hk
    unfold mapTable at hk
    rw [List.getElem?_map] at hk
    cases htk : table[k]? with
    | none => rw [htk] at hk; cases hk
    | some col =>
      rw [htk, Option.map_some, Option.some.injEq] at hk
      subst hk
      have hkw : k < (wantedNames mk num o recs).length := by
        have := (List.getElem?_eq_some_iff.1 htk).1
        omega
      have hit : colIter (col.2.map (·.map val)) = col.2.flatten.map val := by
        simp only [colIter, List.map_flatten, List.flatMap, List.map_map]
        rfl
      show colIter (col.2.map (·.map val)) = ((requestedRows o recs).map _).map _
      rw [hit, hc k hkw col htk, List.map_map, List.map_map]
      apply List.map_congr_left
      intro rec _
      simp only [Function.comp]
      rw [List.getD_eq_getElem?_getD (l := List.map _ _), List.getElem?_map, List.getElem?_eq_getElem hkw]
      simp only [Option.map_some, Option.getD_some]
      congr 3
      rw [List.getD_eq_getElem?_getD, List.getElem?_eq_getElem hkw]
      rfl

/-- **C142** (partial, several types): as `C142_partial`, for files whose columns may have several types, if their texts agree.  Missing: columns whose texts do not agree, see `C130_exact` and `C142_fails`,
and what is missing in `C140_partial`. -/
theorem C142_agree_partial {K κ η φ σ ρ : Type} [LinearOrder K] [DecidableEq η] [DecidableEq ρ] (S : Surroundings (List Char) κ K η) (F : Folds (List Char) φ σ) (hmk : ∀ d a b, S.fresh d a = S.fresh d b → a = b)
    (hord : ∀ l v, v ∈ S.ord l ↔ v ∈ l) (hjord : ∀ l, (S.jord l).Perm l) (yml : ρ) (ord : List (ρ × List SVal) → List (ρ × List SVal)) (hz : ∀ l x, x ∈ ord l ↔ x ∈ l)
    (pf : List Char → Option Rat) (num : Nat → List Char) (ps : Nat) (hps : 0 < ps) (d : Nat → Dialect) (o : Nat → ImportOpts)
    (lines : Nat → List (List Char)) (recs : Nat → List (List (List Char))) (hfile : ∀ i, Importable S.fresh num (d i) (o i) (lines i) (recs i))
    (hA : ∀ i, ColumnsAgree pf S.fresh num (o i) (recs i)) (hkeep : ∀ i, KeptEach (o i) ps (recs i)) (val : InfVal → SVal)
    (sessions : List (Nat × List (Nat × Stmt (List Char) κ φ))) (hpss : ∀ s ∈ sessions, 0 < s.1)
    (hs : ScriptOk S F true (fun i => aloneRel pf S.fresh num (o i) val (recs i)) (sessions.flatMap (·.2))) :
    ∃ tables : Nat → List (List Char × List (List InfVal)), (∀ i, importTyped pf S.fresh num (d i) (o i) ps (lines i) = .ok (tables i)) ∧
      ∀ out, Sessions S F yml ord (fun i => mapTable val (tables i)) sessions out →
        ∃ rels, ScriptGives S F (fun i => aloneRel pf S.fresh num (o i) val (recs i)) (sessions.flatMap (·.2)) rels ∧
          ∀ i, Shows .none (out i) (rels i) ∧ ∀ txt delim, textWriter txt .none delim (out i) = .ok (relText txt delim (rels i)) := by
  have h := fun i => C142_agree pf S.fresh hmk num (d i) (o i) (lines i) (recs i) (hfile i) (hA i) val ps hps (hkeep i)
  choose tables h1 h2 h3 h4 using h
  refine ⟨tables, h1, fun out hrun => ?_⟩
  obtain ⟨rels, g1, g2⟩ := C140_partial S F hmk hord hjord yml ord hz sessions hpss _ out _ (fun i => ⟨h2 i, h3 i, h4 i⟩) hs hrun
  exact ⟨rels, g1, fun i => ⟨g2 i, fun txt delim => C141_export txt delim _ _ (g2 i)⟩⟩

/-- a check for lists of texts with their types -/
theorem agree_of_list (pf : List Char → Option Rat) (L : List (List Char × DType))
    (h1 : ∀ p ∈ L, (inferAs pf p.2 p.1).toOption ≠ none ∧ ∀ u ∈ DType.all, typePlace u < typePlace p.2 → inferAs pf u p.1 = .error .value)
    (h2 : ∀ p ∈ L, ∀ q ∈ L, (inferAs pf q.2 p.1 = .error .value ∨ inferAs pf q.2 p.1 = inferAs pf p.2 p.1) ∧ ¬ Clash p.2 q.2) (T : List Char → Prop) (hT : ∀ s, T s → s ∈ L.map (·.1)) :
    (∀ s, T s → ∃ t, TakenAs pf t s) ∧ TextsAgree pf T := by
  have key : ∀ p ∈ L, TakenAs pf p.2 p.1 := by
    intro p hp
    obtain ⟨a, b⟩ := h1 p hp
    refine ⟨?_, fun u hu => b u (by cases u <;> decide) hu⟩
    cases hv : inferAs pf p.2 p.1 with
    | ok v => exact ⟨v, rfl⟩
    | error e => rw [hv] at a; exact absurd rfl a
  refine ⟨fun s hs => ?_, ?_⟩
  · obtain ⟨p, hp, rfl⟩ := List.mem_map.1 (hT s hs)
    exact ⟨_, key p hp⟩
  · intro s s' t t' hs hs' ht ht'
    obtain ⟨p, hp, rfl⟩ := List.mem_map.1 (hT s hs)
    obtain ⟨q, hq, rfl⟩ := List.mem_map.1 (hT s' hs')
    rw [taken_unique ht (key p hp), taken_unique ht' (key q hq)]
    exact h2 p hp q hq

/-- numbers with and without thousands, dates, times and empty fields in one column: the same values for every page size -/
example (ps : Nat) (hps : 0 < ps) : (importTyped noFloat mkNum numText { delimiter := ';' } { skip := none } ps ["a;b".toList, "5;1".toList, "1,000;2".toList, "2024-01-31;3".toList, ";4".toList, "12:30:00;5".toList]).map flatTable =
    .ok [("a".toList, [.int 5, .int 1000, .date 2024 1 31, .none, .time [12, 30, 0] 0 none]), ("b".toList, [.int 1, .int 2, .int 3, .int 4, .int 5])] := by
  have h := C130_agree_partial noFloat mkNum numText { delimiter := ';' } { skip := none } ["a;b".toList, "5;1".toList, "1,000;2".toList, "2024-01-31;3".toList, ";4".toList, "12:30:00;5".toList]
    [["a".toList, "b".toList], ["5".toList, "1".toList], ["1,000".toList, "2".toList], ["2024-01-31".toList, "3".toList], [[], "4".toList], ["12:30:00".toList, "5".toList]]
    ⟨by decide +kernel, by decide +kernel, by decide +kernel, by decide +kernel⟩ (by
      intro i hi
      have hlt : i < 2 := by
        by_contra hc
        revert hi
        have : ∃ n, i = n + 2 := ⟨i - 2, by omega⟩
        obtain ⟨n, rfl⟩ := this
        show ([] : List Char) ∈ _ → False
        decide +kernel
      have hcases : i = 0 ∨ i = 1 := by omega
      rcases hcases with rfl | rfl
      · refine agree_of_list noFloat [("5".toList, .intSimple), ("1,000".toList, .intUS), ("2024-01-31".toList, .date), ([], .none), ("12:30:00".toList, .time)] (by decide +kernel) (by decide +kernel) _ ?_
        rintro s ⟨r, hr, rfl⟩
        revert r
        decide +kernel
      · refine agree_of_list noFloat [("1".toList, .intSimple), ("2".toList, .intSimple), ("3".toList, .intSimple), ("4".toList, .intSimple), ("5".toList, .intSimple)] (by decide +kernel) (by decide +kernel) _ ?_
        rintro s ⟨r, hr, rfl⟩
        revert r
        decide +kernel) ps hps (kept_of_none _ rfl ps hps _)
  rw [h]
  decide +kernel

/-- the columns of a file with a row that is skipped agree -/
theorem twoRecs_agree : ColumnsAgree noFloat mkNum numText { skip := some true } (twoRecs 1) := by
  intro i hi
  have hlt : i < 2 := by
    by_contra hc
    revert hi
    have : ∃ n, i = n + 2 := ⟨i - 2, by omega⟩
    obtain ⟨n, rfl⟩ := this
    show ([] : List Char) ∈ _ → False
    decide +kernel
  have hcases : i = 0 ∨ i = 1 := by omega
  rcases hcases with rfl | rfl
  · refine agree_of_list noFloat [("2".toList, .intSimple)] (by decide +kernel) (by decide +kernel) _ ?_
    rintro s ⟨r, hr, rfl⟩
    revert r
    decide +kernel
  · refine agree_of_list noFloat [("x".toList, .string)] (by decide +kernel) (by decide +kernel) _ ?_
    rintro s ⟨r, hr, rfl⟩
    revert r
    decide +kernel

/-- in pages of two rows it is imported, in pages of one row it is not -/
example : ((importTyped noFloat mkNum numText {} { skip := some true } 2 (twoFiles 1)).map flatTable).isOk = true ∧
    ∃ e, importTyped noFloat mkNum numText {} { skip := some true } 1 (twoFiles 1) = .error e := by
  constructor
  · rw [(C130_skip_exact noFloat mkNum numText {} { skip := some true } (twoFiles 1) (twoRecs 1) (twoFiles_importable _ 1) twoRecs_agree 2 (by omega)).1.2 (twoRecs_kept 1)]
    rfl
  · refine (C130_skip_exact noFloat mkNum numText {} { skip := some true } (twoFiles 1) (twoRecs 1) (twoFiles_importable _ 1) twoRecs_agree 1 (by omega)).2 ?_
    intro h
    obtain ⟨r, hr, hs⟩ := h 1 (by decide +kernel)
    revert r
    decide +kernel

end Tablite
