import Verif.Props.Sessions
import Verif.Props.ImportScript
import Verif.Props.ExportExact
/-!
# C141: from files to a file

Text files are imported, scripts work on the tables in several sessions with saving and loading between them, and the outcome is exported as text.
-/
namespace Tablite
set_option linter.unusedSectionVars false

/-- Spec: these names and rows, each value replaced by a text -/
def textRel (txt : SVal → List Char) (r : Rel (List Char) SVal) : Rel (List Char) SVal := ⟨r.names, r.rows.map fun row => row.map fun v => textVal (txt v)⟩

/-- Spec: a file of these names and rows -/
def relText (txt : SVal → List Char) (delim : Char) (r : Rel (List Char) SVal) : List Char :=
  (r.names :: r.rows.map fun row => row.map txt).flatMap fun fields => pyWriteRow delim fields

/-- **C141** (exports): the exported text depends on the names and rows only, not on the pages -/
theorem C141_export (txt : SVal → List Char) (delim : Char) (t : Tbl (List Char) SVal) (r : Rel (List Char) SVal) (h : Shows .none t r) :
    textWriter txt .none delim t = .ok (relText txt delim r) := by
  obtain ⟨-, hn, -, hr⟩ := h
  unfold textWriter relText
  rw [hr, hn, List.flatMap_cons, List.flatMap_map]
  rfl

theorem shows_column {t : Tbl (List Char) SVal} {r : Rel (List Char) SVal} (h : Shows .none t r) (k : Nat) (c : List Char × Pages SVal) (hc : t[k]? = some c) :
    colIter c.2 = r.rows.map fun row => r.get .none row c.1 := by
  have hv := ((shows_iff _ _ _).1 h).2
  have h1 : (tview t)[k]? = some (c.1, colIter c.2) := by
    unfold tview
    rw [List.getElem?_map, hc]
    rfl
  rw [hv] at h1
  unfold Rel.cols at h1
  rw [List.getElem?_map] at h1
  cases hk : r.names[k]? with
  | none => rw [hk] at h1; cases h1
  | some x =>
    rw [hk] at h1
    simp only [Option.map_some, Option.some.injEq, Prod.mk.injEq] at h1
    rw [← h1.2, ← h1.1]

theorem shows_len {t : Tbl (List Char) SVal} {r : Rel (List Char) SVal} (h : Shows .none t r) : tblLen t = r.rows.length := by
  have hne := tbl_ne h.1 h.2.1
  unfold tblLen
  have hall : ∀ x ∈ t.map (fun c => colLen c.2), x = r.rows.length := by
    intro x hx
    obtain ⟨c, hc, rfl⟩ := List.mem_map.1 hx
    exact h.2.2.1 c hc
  have hne' : t.map (fun c => colLen c.2) ≠ [] := by simpa using hne
  generalize t.map (fun c => colLen c.2) = l at hall hne'
  have key : ∀ (l : List Nat) (a : Nat), (∀ x ∈ l, x = r.rows.length) → a ≤ r.rows.length → l ≠ [] → l.foldl max a = r.rows.length := by
    intro l
    induction l with
    | nil => intro a _ _ hne; exact absurd rfl hne
    | cons x l ih =>
      intro a hx ha _
      have hx1 := hx x (by simp)
      rw [List.foldl_cons, hx1, Nat.max_eq_right ha]
      cases l with
      | nil => rfl
      | cons y l => exact ih _ (fun z hz => hx z (List.mem_cons_of_mem _ hz)) (Nat.le_refl _) (by simp)
  exact key l 0 hall (Nat.zero_le _) hne'

theorem place_lt {ν : Type} [DecidableEq ν] (x : ν) (l : List ν) (h : x ∈ l) : l.idxOf x < l.length := List.idxOf_lt_length_iff.2 h

theorem textRel_get (f : SVal → List Char) {r : Rel (List Char) SVal} (h : r.WF) {row : List SVal} (hr : row ∈ r.rows) (x : List Char) (hx : x ∈ r.names) :
    (textRel f r).get .none (row.map fun v => textVal (f v)) x = textVal (f (r.get .none row x)) := by
  unfold Rel.get textRel
  dsimp only
  generalize hi : @List.idxOf (List Char) instBEqOfDecidableEq x r.names = j
  have hj : j < row.length := by
    rw [h.2.2 _ hr, ← hi]
    exact place_lt x r.names hx
  rw [List.getD_eq_getElem?_getD, List.getD_eq_getElem?_getD, List.getElem?_map, List.getElem?_eq_getElem hj]
  rfl

/-- values whose texts can be read back -/
def Readable (txt : SVal → List Char) (r : Rel (List Char) SVal) : Prop :=
  (∀ x ∈ r.names, Plain x) ∧ ∀ row ∈ r.rows, ∀ v ∈ row, tame (txt v) = true ∧ (txt v).length ≤ 131072 ∧ '\r' ∉ txt v

/-- **C141** (back again): what is exported and imported with the delimiter and the quotes, for any page size, has the names and, of every value, its text - without backslashes, with a backslash and
a letter for tabs and line feeds. -/
theorem C141_back (mk : List Char → Nat → List Char) (num : Nat → List Char) (txt : SVal → List Char) (delim : Char) (hdl : delim ≠ '"' ∧ delim ≠ '\\' ∧ isCrnl delim = false)
    (ps : Nat) (hps : 0 < ps) (t : Tbl (List Char) SVal) (r : Rel (List Char) SVal) (h : Shows .none t r) (hr : Readable txt r) :
    ∃ table, fromFile mk num (some delim) (some '"') false ps (relText txt delim r) = .ok table ∧ Shows .none (mapTable textVal table) (textRel (fun v => backText (txt v)) r) := by
  have hl := shows_len h
  have hcell : ∀ c ∈ t, ∀ i < tblLen t, ∃ row ∈ r.rows, (colIter c.2).getD i .none ∈ row := by
    intro c hc i hi
    obtain ⟨k, hk⟩ := List.getElem?_of_mem hc
    rw [shows_column h k c hk]
    rw [hl] at hi
    refine ⟨r.rows[i], List.getElem_mem hi, ?_⟩
    rw [List.getD_eq_getElem?_getD, List.getElem?_map, List.getElem?_eq_getElem hi]
    show r.get .none r.rows[i] c.1 ∈ _
    have hx : c.1 ∈ r.names := by rw [← h.2.1]; exact List.mem_map_of_mem hc
    have hg := Rel.row_get (nul := SVal.none) h.1 (List.getElem_mem hi)
    have hm : r.get .none r.rows[i] c.1 ∈ r.names.map (r.get .none r.rows[i]) := List.mem_map_of_mem hx
    rw [hg] at hm
    exact hm
  obtain ⟨text, e1, table, e2, hn, hcols⟩ := C75_effect mk num txt .none delim hdl ps hps t (tbl_ne h.1 h.2.1) (by rw [h.2.1]; exact h.1.2.1)
    (fun c hc => hr.1 _ (by rw [← h.2.1]; exact List.mem_map_of_mem hc)) (fun c hc i hi => by
      obtain ⟨row, h1, h2⟩ := hcell c hc i hi
      exact hr.2 row h1 _ h2)
  rw [C141_export txt delim t r h] at e1
  cases e1
  refine ⟨table, e2, (shows_iff _ _ _).2 ⟨⟨h.1.1, h.1.2.1, ?_⟩, ?_⟩⟩
  · intro row hrow
    obtain ⟨row', h1, rfl⟩ := List.mem_map.1 hrow
    rw [List.length_map]
    exact h.1.2.2 row' h1
  · have hlen : table.length = t.length := by simpa using congrArg List.length hn
    have hnl : t.length = r.names.length := by rw [← h.2.1, List.length_map]
    apply List.ext_getElem?
    intro k
    unfold tview Rel.cols mapTable
    rw [List.map_map, List.getElem?_map, List.getElem?_map]
    by_cases hk : k < t.length
    · have ht : t[k]? = some t[k] := List.getElem?_eq_getElem hk
      have htb : table[k]? = some table[k] := List.getElem?_eq_getElem (by omega)
      have hname : (textRel (fun v => backText (txt v)) r).names[k]? = some (t[k]).1 := by
        show r.names[k]? = _
        rw [← h.2.1, List.getElem?_map, ht]
        rfl
      have hsame : (table[k]).1 = (t[k]).1 := by
        have := congrArg (·[k]?) hn
        simp only [List.getElem?_map, ht, htb, Option.map_some, Option.some.injEq] at this
        exact this
      rw [htb, hname]
      simp only [Option.map_some, Function.comp, hsame, Option.some.injEq, Prod.mk.injEq, true_and]
      have hc := hcols k _ _ htb ht
      have hit : colIter ((table[k]).2.map (·.map textVal)) = (table[k]).2.flatten.map textVal := by
        unfold colIter
        rw [List.flatMap_id', List.map_flatten]
      rw [hit, hc, shows_column h k _ ht, hl]
      show _ = (r.rows.map _).map _
      rw [List.map_map, List.map_map]
      apply List.ext_getElem
      · simp
      · intro i h1 h2
        have hi : i < r.rows.length := by simpa using h1
        have hg := textRel_get (fun v => backText (txt v)) h.1 (List.getElem_mem hi) (t[k]).1 (by rw [← h.2.1]; exact List.mem_map_of_mem (List.getElem_mem hk))
        simp only [List.getElem_map, List.getElem_range, Function.comp]
        rw [hg, List.getD_eq_getElem?_getD, List.getElem?_map, List.getElem?_eq_getElem hi]
        rfl
    · rw [List.getElem?_eq_none (by omega), List.getElem?_eq_none (by show r.names.length ≤ k; omega)]
      rfl

theorem textVal_inj {a b : List Char} (h : textVal a = textVal b) : a = b := by
  unfold textVal at h
  injection h with h
  have := congrArg String.toList h
  simpa using this

/-- **C141** (back again), exactly: what is imported again has the texts of the values if and only if none of them has a line feed, a tab or a backslash. -/
theorem C141_exact (mk : List Char → Nat → List Char) (num : Nat → List Char) (txt : SVal → List Char) (delim : Char) (hdl : delim ≠ '"' ∧ delim ≠ '\\' ∧ isCrnl delim = false)
    (ps : Nat) (hps : 0 < ps) (t : Tbl (List Char) SVal) (r : Rel (List Char) SVal) (h : Shows .none t r) (hr : Readable txt r) :
    (∃ text table, textWriter txt .none delim t = .ok text ∧ fromFile mk num (some delim) (some '"') false ps text = .ok table ∧ Shows .none (mapTable textVal table) (textRel txt r)) ↔
      ∀ row ∈ r.rows, ∀ v ∈ row, ∀ x ∈ txt v, x ≠ '\n' ∧ x ≠ '\t' ∧ x ≠ '\\' := by
  obtain ⟨table, e2, hs⟩ := C141_back mk num txt delim hdl ps hps t r h hr
  have e1 := C141_export txt delim t r h
  constructor
  · rintro ⟨text, table', e1', e2', hs'⟩ row hrow v hv
    rw [e1] at e1'
    cases e1'
    rw [e2] at e2'
    cases e2'
    have hrows : (textRel (fun v => backText (txt v)) r).rows = (textRel txt r).rows := by
      have a := hs.2.2.2
      rw [hs'.2.2.2] at a
      injection a with a
      exact a.symm
    unfold textRel at hrows
    have h1 := List.map_inj_left.1 hrows row hrow
    have h2 := textVal_inj (List.map_inj_left.1 h1 v hv)
    exact (backText_fixed _ (hr.2 row hrow v hv).1).1 h2
  · intro hx
    refine ⟨_, table, e1, e2, ?_⟩
    have : textRel (fun v => backText (txt v)) r = textRel txt r := by
      unfold textRel
      congr 1
      refine List.map_congr_left fun row hrow => List.map_congr_left fun v hv => ?_
      exact congrArg textVal ((backText_fixed _ (hr.2 row hrow v hv).1).2 (hx row hrow v hv))
    rw [← this]
    exact hs

/-- **C141** (partial): text files are imported as texts, no page losing all its rows to skipping; scripts work on the tables in sessions, any tables being saved and loaded between them.  Then there are rows which
all the scripts, one after the other, compute on the records of the files, and the exported file is the text of these rows, whatever the page sizes; imported again it has their texts.  Missing: what is missing
in `C132_partial`, `C140_partial` and `C141_exact`. -/
theorem C141_partial {K κ η φ σ ρ : Type} [LinearOrder K] [DecidableEq η] [DecidableEq ρ] (S : Surroundings (List Char) κ K η) (F : Folds (List Char) φ σ) (hmk : ∀ d a b, S.fresh d a = S.fresh d b → a = b)
    (hord : ∀ l v, v ∈ S.ord l ↔ v ∈ l) (hjord : ∀ l, (S.jord l).Perm l) (yml : ρ) (ord : List (ρ × List SVal) → List (ρ × List SVal)) (hz : ∀ l x, x ∈ ord l ↔ x ∈ l)
    (num : Nat → List Char) (ps : Nat) (hps : 0 < ps) (d : Nat → Dialect) (o : Nat → ImportOpts)
    (lines : Nat → List (List Char)) (recs : Nat → List (List (List Char))) (hfile : ∀ i, Importable S.fresh num (d i) (o i) (lines i) (recs i)) (hskip : ∀ i, KeptEach (o i) ps (recs i))
    (sessions : List (Nat × List (Nat × Stmt (List Char) κ φ))) (hpss : ∀ s ∈ sessions, 0 < s.1)
    (hs : ScriptOk S F true (fun i => fileRel S.fresh num (o i) (recs i)) (sessions.flatMap (·.2)))
    (tables : Nat → List (List Char × List (List (List Char)))) (htables : ∀ i, importText S.fresh num (d i) (o i) ps (lines i) = .ok (tables i))
    (out : Nat → Tbl (List Char) SVal) (hrun : Sessions S F yml ord (fun i => mapTable textVal (tables i)) sessions out)
    (txt : SVal → List Char) (delim : Char) :
    ∃ rels, ScriptGives S F (fun i => fileRel S.fresh num (o i) (recs i)) (sessions.flatMap (·.2)) rels ∧
      ∀ i, textWriter txt .none delim (out i) = .ok (relText txt delim (rels i)) ∧
        (delim ≠ '"' ∧ delim ≠ '\\' ∧ isCrnl delim = false → Readable txt (rels i) → ∀ ps', 0 < ps' →
          ∃ table, fromFile S.fresh num (some delim) (some '"') false ps' (relText txt delim (rels i)) = .ok table ∧
            Shows .none (mapTable textVal table) (textRel (fun v => backText (txt v)) (rels i))) := by
  have hdb : ∀ i, Shows .none (mapTable textVal (tables i)) (fileRel S.fresh num (o i) (recs i)) ∧ Aligned (mapTable textVal (tables i)) ∧ Solid (mapTable textVal (tables i)) := by
    intro i
    obtain ⟨tb, h1, h2, h3, h4⟩ := C132_import S.fresh hmk num (d i) (o i) ps hps (lines i) (recs i) (hfile i)
    rw [htables i] at h1
    cases h1
    exact ⟨h2, h3, h4.2 (hskip i)⟩
  obtain ⟨rels, g1, g2⟩ := C140_partial S F hmk hord hjord yml ord hz sessions hpss _ out _ hdb hs hrun
  exact ⟨rels, g1, fun i => ⟨C141_export txt delim _ _ (g2 i), fun hdl hr ps' hps' => C141_back S.fresh num txt delim hdl ps' hps' _ _ (g2 i) hr⟩⟩

/-- the full claim about the last step: what is exported and imported has the texts of the values -/
def C141_statement : Prop :=
  ∀ (mk : List Char → Nat → List Char) (num : Nat → List Char) (txt : SVal → List Char) (delim : Char), delim ≠ '"' ∧ delim ≠ '\\' ∧ isCrnl delim = false →
    ∀ (ps : Nat), 0 < ps → ∀ (t : Tbl (List Char) SVal) (r : Rel (List Char) SVal), Shows .none t r → Readable txt r →
      ∃ text table, textWriter txt .none delim t = .ok text ∧ fromFile mk num (some delim) (some '"') false ps text = .ok table ∧ Shows .none (mapTable textVal table) (textRel txt r)

/-- the texts of texts -/
def plainTxt : SVal → List Char
  | .str s => s.toList
  | _ => []

theorem twoLines_shows : Shows .none ([(['x'], [[.str "a\nb"]])] : Tbl (List Char) SVal) ⟨[['x']], [[.str "a\nb"]]⟩ :=
  ⟨⟨by simp, by simp, by simp⟩, rfl, by intro c hc; cases List.mem_singleton.1 hc; rfl, by decide +kernel⟩

/-- a text of two lines comes back as one line -/
theorem C141_fails : ¬ C141_statement := by
  intro h
  have hr : Readable plainTxt ⟨[['x']], [[.str "a\nb"]]⟩ := by
    refine ⟨?_, ?_⟩
    · intro x hx
      simp only [List.mem_singleton] at hx
      subst hx
      exact ⟨by decide, by decide⟩
    · intro row hrow v hv
      simp only [List.mem_singleton] at hrow
      subst hrow
      simp only [List.mem_singleton] at hv
      subst hv
      decide +kernel
  have := (C141_exact mkNum numText plainTxt ',' (by decide) 10 (by omega) _ _ twoLines_shows hr).1 (h _ _ _ _ (by decide) 10 (by omega) _ _ twoLines_shows hr)
  exact absurd rfl (this [.str "a\nb"] (by simp) (.str "a\nb") (by simp) '\n' (by decide +kernel)).1

/-- two files are imported and joined, and what is exported is the text of the rows of the join: the hypotheses of `C141_partial` are met -/
example : ∃ (tables : Nat → _) (out : Nat → Tbl (List Char) SVal), (∀ i, importText mkNum numText {} { skip := some true } 2 (twoFiles i) = .ok (tables i)) ∧
    Sessions plainlyText countingText (none : Option (List SVal)) id (fun i => mapTable textVal (tables i)) [(1, joinFiles)] out ∧
    ∃ rels, ScriptGives plainlyText countingText (fun i => fileRel mkNum numText { skip := some true } (twoRecs i)) joinFiles rels ∧
      textWriter plainTxt .none ',' (out 2) = .ok (relText plainTxt ',' (rels 2)) := by
  obtain ⟨tables, ht, db, -, h1, -, -⟩ := C132_partial plainlyText countingText (fun d a b => mkNum_inj d a b) (fun _ _ => Iff.rfl) (fun l => List.Perm.refl l) numText 2 1 (by omega) (by omega)
    (fun _ => {}) (fun _ => { skip := some true }) twoFiles twoRecs (twoFiles_importable _) twoRecs_kept joinFiles (joinFiles_ok _)
  have hrun : Sessions plainlyText countingText (none : Option (List SVal)) id (fun i => mapTable textVal (tables i)) [(1, joinFiles)] db :=
    .next _ db db _ 1 1 _ _ h1 (by omega) (fun _ => .inl rfl) (.done _)
  obtain ⟨rels, g1, g2⟩ := C141_partial plainlyText countingText (fun d a b => mkNum_inj d a b) (fun _ _ => Iff.rfl) (fun l => List.Perm.refl l) (none : Option (List SVal)) id (fun _ _ => Iff.rfl) numText 2
    (by omega) (fun _ => {}) (fun _ => { skip := some true }) twoFiles twoRecs (twoFiles_importable _) twoRecs_kept [(1, joinFiles)] (by simp) (joinFiles_ok _) tables ht db hrun plainTxt ','
  exact ⟨tables, db, ht, hrun, rels, g1, (g2 2).1⟩

end Tablite
