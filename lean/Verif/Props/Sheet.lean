import Verif.Model.Sheet
import Verif.Lemmas.Paging
import Verif.Props.Codec
import Verif.Props.TableOps
import Verif.Props.Misc
/-! C89, C90, C91: import of Excel sheets, ODS sheets and HTML files -/

namespace Tablite

variable {O : Type}

/-! ## pages of a concatenation -/

theorem paginateLoop_add {α} (ps : Nat) (v : List α) (q k s : Nat) :
    paginateLoop ps v (q + k) s = paginateLoop ps v q s ++ paginateLoop ps v k (s + q * ps) := by
  induction q generalizing s with
  | zero => simp [paginateLoop]
  | succ q ih =>
    rw [show q + 1 + k = (q + k) + 1 by omega, paginateLoop, paginateLoop, List.cons_append, ih]
    congr 3
    rw [Nat.succ_mul]; omega

theorem paginateLoop_left {α} (ps : Nat) (a b : List α) (q s : Nat) (h : s + q * ps ≤ a.length) :
    paginateLoop ps (a ++ b) q s = paginateLoop ps a q s := by
  induction q generalizing s with
  | zero => rfl
  | succ q ih =>
    rw [Nat.succ_mul] at h
    rw [paginateLoop, paginateLoop, ih _ (by omega), List.take_append_of_le_length (by omega)]

theorem paginateLoop_right {α} (ps : Nat) (a b : List α) (k s : Nat) :
    paginateLoop ps (a ++ b) k (a.length + s) = paginateLoop ps b k s := by
  induction k generalizing s with
  | zero => rfl
  | succ k ih =>
    dsimp only [paginateLoop]
    rw [show a.length + s + ps = a.length + (s + ps) by omega, ih, List.take_append, List.drop_append,
      List.drop_eq_nil_of_le (by simp)]
    simp only [List.nil_append, List.length_take]
    congr 1
    rw [show a.length + (s + ps) - a.length = s + ps by omega,
      show a.length + s - min (a.length + (s + ps)) a.length = s by omega]

/-- full pages stay as they are when values are added behind them -/
theorem paginate_append {α} (ps : Nat) (hps : 0 < ps) (a b : List α) (h : a.length % ps = 0) :
    paginate ps (a ++ b) = paginate ps a ++ paginate ps b := by
  obtain ⟨q, hq⟩ := Nat.dvd_of_mod_eq_zero h
  have e1 : (a.length + ps - 1) / ps = q := by
    rw [hq, show ps * q + ps - 1 = (ps - 1) + ps * q by omega, Nat.add_mul_div_left _ _ hps, Nat.div_eq_of_lt (by omega)]; omega
  have e2 : ((a ++ b).length + ps - 1) / ps = q + (b.length + ps - 1) / ps := by
    rw [List.length_append, hq, show ps * q + b.length + ps - 1 = (b.length + ps - 1) + ps * q by omega, Nat.add_mul_div_left _ _ hps]; omega
  have e3 : q * ps = a.length := by rw [hq, Nat.mul_comm]
  unfold paginate
  rw [e1, e2, paginateLoop_add, paginateLoop_left _ _ _ _ _ (by omega), Nat.zero_add, e3]
  have := paginateLoop_right ps a b ((b.length + ps - 1) / ps) 0
  rw [Nat.add_zero] at this
  rw [this]

/-! ## names -/

theorem natText_inj {a b : Nat} (h : natText a = natText b) : a = b := by
  have h1 := parseNatText_natText a
  rw [h, parseNatText_natText] at h1
  cases h1; rfl

theorem nameSuffix_inj (d : PyText) (a b : Nat) (h : nameSuffix d a = nameSuffix d b) : a = b := by
  unfold nameSuffix at h
  have := List.append_cancel_left h
  exact natText_inj (List.cons.inj this).2

theorem uniqueName_pyText (d : PyText) (names : List PyText) :
    uniqueName nameSuffix d names ∉ names ∧ (d ∉ names → uniqueName nameSuffix d names = d) ∧
    (d ∈ names → ∃ i, 1 ≤ i ∧ uniqueName nameSuffix d names = d ++ 95 :: natText i ∧ ∀ k, 1 ≤ k → k < i → d ++ 95 :: natText k ∈ names) :=
  C47_unique_name nameSuffix d names (nameSuffix_inj d)

/-- what the loop that makes names unique returns: the positions in order, different names, each the wanted one if none of the
names before it is equal, and otherwise the wanted one with the first number that is free -/
structure NamesOk (wanted got : List (PyText × Nat)) : Prop where
  positions : got.map (·.2) = wanted.map (·.2)
  distinct : (got.map (·.1)).Nodup
  each : ∀ (i : Nat) (w g : PyText × Nat), wanted[i]? = some w → got[i]? = some g →
    (w.1 ∉ (got.take i).map (·.1) → g.1 = w.1) ∧
    (w.1 ∈ (got.take i).map (·.1) → ∃ k, 1 ≤ k ∧ g.1 = w.1 ++ 95 :: natText k ∧
      ∀ j, 1 ≤ j → j < k → w.1 ++ 95 :: natText j ∈ (got.take i).map (·.1))

theorem nameLoop_prefix (l acc : List (PyText × Nat)) : ∃ r, nameLoop acc l = acc ++ r ∧ r.map (·.2) = l.map (·.2) ∧
    ((acc.map (·.1)).Nodup → ((acc ++ r).map (·.1)).Nodup) ∧
    ∀ (i : Nat) (w g : PyText × Nat), l[i]? = some w → r[i]? = some g →
      (w.1 ∉ (acc ++ r.take i).map (·.1) → g.1 = w.1) ∧
      (w.1 ∈ (acc ++ r.take i).map (·.1) → ∃ k, 1 ≤ k ∧ g.1 = w.1 ++ 95 :: natText k ∧
        ∀ j, 1 ≤ j → j < k → w.1 ++ 95 :: natText j ∈ (acc ++ r.take i).map (·.1)) := by
  induction l generalizing acc with
  | nil => exact ⟨[], by simp [nameLoop], rfl, by simp, by simp⟩
  | cons x l ih =>
    obtain ⟨h1, h2, h3⟩ := uniqueName_pyText x.1 (acc.map (·.1))
    obtain ⟨r, e1, e2, e3, e4⟩ := ih (acc ++ [(uniqueName nameSuffix x.1 (acc.map (·.1)), x.2)])
    refine ⟨(uniqueName nameSuffix x.1 (acc.map (·.1)), x.2) :: r, ?_, ?_, ?_, ?_⟩
    · rw [nameLoop, e1]; simp
    · simp [e2]
    · intro hn
      have := e3 (by
        rw [List.map_append, List.nodup_append]
        refine ⟨hn, by simp, ?_⟩
        intro a ha b hb e
        simp only [List.map_cons, List.map_nil, List.mem_singleton] at hb
        exact h1 (hb ▸ e ▸ ha))
      simpa using this
    · intro i w g hw hg
      cases i with
      | zero =>
        simp only [List.getElem?_cons_zero, Option.some.injEq] at hw hg
        subst hw; subst hg
        simp only [List.take_zero, List.append_nil]
        exact ⟨h2, h3⟩
      | succ i =>
        have := e4 i w g (by simpa using hw) (by simpa using hg)
        simpa using this

theorem nameLoop_ok (l : List (PyText × Nat)) : NamesOk l (nameLoop [] l) := by
  obtain ⟨r, e1, e2, e3, e4⟩ := nameLoop_prefix l []
  rw [e1]
  refine ⟨by simpa using e2, e3 (by simp), ?_⟩
  intro i w g hw hg
  exact e4 i w g hw (by simpa using hg)

/-- different names stay as they are -/
theorem nameLoop_nodup (l acc : List (PyText × Nat)) (h : ((acc ++ l).map (·.1)).Nodup) : nameLoop acc l = acc ++ l := by
  induction l generalizing acc with
  | nil => simp [nameLoop]
  | cons x l ih =>
    have hx : x.1 ∉ acc.map (·.1) := by
      rw [List.map_append, List.nodup_append] at h
      exact fun hm => h.2.2 _ hm _ List.mem_cons_self rfl
    rw [nameLoop, (uniqueName_pyText x.1 _).2.1 hx]
    have := ih (acc ++ [x]) (by simpa using h)
    rw [this]; simp

/-! ## writing and reading the pages of all columns -/

theorem xlsWrite_snoc (R : XlsRuntime O) (l : List (PV O)) (v : PV O) :
    xlsWrite R (l ++ [v]) = (xlsWrite R l).bind fun a => (xlsRecord R v).bind fun b => .ok (a ++ b) := by
  induction l with
  | nil =>
    show xlsWrite R [v] = _
    simp only [xlsWrite]
    cases xlsRecord R v with
    | error e => rfl
    | ok b => simp [Except.bind]
  | cons x l ih =>
    rw [List.cons_append, xlsWrite, ih, xlsWrite]
    cases xlsRecord R x with
    | error e => rfl
    | ok a =>
      dsimp only [Except.bind]
      cases xlsWrite R l with
      | error e => rfl
      | ok b =>
        dsimp only
        cases xlsRecord R v with
        | error e => rfl
        | ok c => simp

theorem excelWriteRow_map {β : Type} (R : XlsRuntime O) (fields : List β) (F : β → List Nat) (g : β → PV O) (r : β → List Nat)
    (h : ∀ x ∈ fields, xlsRecord R (g x) = .ok (r x)) :
    excelWriteRow R (fields.map F) (fields.map g) = .ok (fields.map fun x => F x ++ r x) := by
  induction fields with
  | nil => rfl
  | cons x l ih =>
    rw [List.map_cons, List.map_cons, excelWriteRow, h x List.mem_cons_self, ih fun y hy => h y (List.mem_cons_of_mem _ hy)]
    rfl

theorem excelFlush_map (R : XlsRuntime O) (ps : Nat) (fields : List (PyText × Nat)) (P : PyText × Nat → Pages (PV O)) (F : PyText × Nat → List Nat)
    (V : PyText × Nat → List (PV O)) (h : ∀ x ∈ fields, xlsRead R (F x) = .ok (V x)) :
    excelFlush R ps (fields.map fun x => (x.1, P x)) (fields.map F) = .ok (fields.map fun x => (x.1, P x ++ paginate ps (V x))) := by
  induction fields with
  | nil => rfl
  | cons x l ih =>
    rw [List.map_cons, List.map_cons, excelFlush, h x List.mem_cons_self, ih fun y hy => h y (List.mem_cons_of_mem _ hy)]
    rfl

/-- the state of the loop after the rows `done`: `fields` map rows to cells by `g` -/
structure ExcelInv (R : XlsRuntime O) (ps : Nat) (fields : List (PyText × Nat)) (done : List (PyText × Nat → PV O)) (s : ExcelSt O) : Prop where
  idx : s.idx = done.length
  run : ∃ closed opened, done = closed ++ opened ∧ closed.length % ps = 0 ∧ opened.length ≤ ps ∧
    s.cols = fields.map (fun x => (x.1, paginate ps (closed.map fun g => g x))) ∧
    ((done = [] ∧ s.fhs = none) ∨ (opened ≠ [] ∧ ∃ F, s.fhs = some (fields.map F) ∧ ∀ x ∈ fields, xlsWrite R (opened.map fun g => g x) = .ok (F x)))

theorem xlsRead_of_write (R : XlsRuntime O) (hR : XlsRuntimeOk R) (cells : List (PV O)) (hc : ∀ v ∈ cells, XlsCell R v) (f : List Nat)
    (h : xlsWrite R cells = .ok f) : xlsRead R f = .ok cells := by
  obtain ⟨f', h1, h2⟩ := C54_roundtrip R hR cells hc
  rw [h] at h1; cases h1; exact h2

theorem excelClose_inv (R : XlsRuntime O) (hR : XlsRuntimeOk R) (ps : Nat) (hps : 0 < ps) (fields : List (PyText × Nat)) (done : List (PyText × Nat → PV O))
    (hc : ∀ g ∈ done, ∀ x ∈ fields, XlsCell R (g x)) (s : ExcelSt O) (hs : ExcelInv R ps fields done s) :
    excelClose R ps s = .ok (fields.map fun x => (x.1, paginate ps (done.map fun g => g x))) := by
  obtain ⟨closed, opened, hd, h1, h2, h3, h4⟩ := hs.run
  unfold excelClose
  rcases h4 with ⟨e1, e2⟩ | ⟨e1, F, e2, e3⟩
  · rw [e2]
    dsimp only
    subst e1
    have : closed = [] := by cases closed with
      | nil => rfl
      | cons a l => cases hd
    subst this
    rw [h3]
  · rw [e2]
    dsimp only
    rw [h3, excelFlush_map R ps fields _ F (fun x => opened.map fun g => g x)]
    · subst hd
      congr 1
      apply List.map_congr_left
      intro x _
      rw [List.map_append, paginate_append ps hps _ _ (by simpa using h1)]
    · intro x hx
      refine xlsRead_of_write R hR _ ?_ _ (e3 x hx)
      intro v hv
      obtain ⟨g, hg, rfl⟩ := List.mem_map.1 hv
      exact hc g (by rw [hd]; exact List.mem_append_right _ hg) x hx

theorem xlsRecord_ok (R : XlsRuntime O) (hR : XlsRuntimeOk R) (v : PV O) (h : XlsCell R v) : ∃ b, xlsRecord R v = .ok b := by
  obtain ⟨x, h1, h2, _⟩ := xlsPayload_ok R hR v h
  exact ⟨_, by rw [xlsRecord, h1]; dsimp only [Except.bind]; rw [if_pos h2]⟩

theorem excelPush_inv (R : XlsRuntime O) (hR : XlsRuntimeOk R) (ps : Nat) (hps : 0 < ps) (fields : List (PyText × Nat)) (done : List (PyText × Nat → PV O))
    (g : PyText × Nat → PV O) (hc : ∀ g ∈ done, ∀ x ∈ fields, XlsCell R (g x)) (hg : ∀ x ∈ fields, XlsCell R (g x)) (s : ExcelSt O)
    (hs : ExcelInv R ps fields done s) : ∃ s', excelPush R ps s (fields.map g) = .ok s' ∧ ExcelInv R ps fields (done ++ [g]) s' := by
  have hrec : ∀ x, ∃ b, x ∈ fields → xlsRecord R (g x) = .ok b := by
    intro x
    by_cases hx : x ∈ fields
    · obtain ⟨b, hb⟩ := xlsRecord_ok R hR _ (hg x hx); exact ⟨b, fun _ => hb⟩
    · exact ⟨[], fun h => absurd h hx⟩
  choose r hr using hrec
  have hclose := excelClose_inv R hR ps hps fields done hc s hs
  obtain ⟨closed, opened, hd, h1, h2, h3, h4⟩ := hs.run
  unfold excelPush excelOpen
  rw [if_neg (by omega)]
  by_cases hm : s.idx % ps = 0
  · rw [if_pos hm, hclose]
    dsimp only [Except.bind, Option.getD]
    have e : (s.cols.map fun _ => ([] : List Nat)) = fields.map fun _ => [] := by rw [h3, List.map_map]; rfl
    rw [e, excelWriteRow_map R fields (fun _ => []) g r hr]
    refine ⟨_, rfl, ⟨by simp [hs.idx], done, [g], rfl, by rw [← hs.idx]; exact hm, by simp; omega, rfl, Or.inr ⟨by simp, fun x => [] ++ r x, rfl, ?_⟩⟩⟩
    intro x hx
    simp [xlsWrite, hr x hx, Except.bind]
  · rw [if_neg hm]
    rcases h4 with ⟨e1, _⟩ | ⟨e1, F, e2, e3⟩
    · exfalso; apply hm; rw [hs.idx, e1]; simp
    · dsimp only [Except.bind]
      rw [e2]
      dsimp only [Option.getD]
      rw [excelWriteRow_map R fields F g r hr]
      refine ⟨_, rfl, ⟨by simp [hs.idx], closed, opened ++ [g], by rw [hd]; simp, h1, ?_, h3, Or.inr ⟨by simp, fun x => F x ++ r x, rfl, ?_⟩⟩⟩
      · rw [List.length_append, List.length_singleton]
        by_contra hcon
        apply hm
        rw [hs.idx, hd, List.length_append, show opened.length = ps by omega, Nat.add_mod_right]; exact h1
      · intro x hx
        rw [List.map_append, List.map_cons, List.map_nil, xlsWrite_snoc, e3 x hx, hr x hx]; rfl

/-! ## the loop over the rows -/

/-- the cell of a row at a position, without tabs and line breaks -/
def sheetCell (row : List (PV O)) (i : Nat) : PV O := stripEsc (row.getD i .none)

/-- `skip_empty` of the Excel reader: which rows are imported, looking at the imported cells only -/
def ExcelKept (skip : Option Bool) (cells : List (PV O)) : Prop :=
  match skip with
  | none => True
  | some true => ∃ v ∈ cells, v ≠ .none
  | some false => ∀ v ∈ cells, v ≠ .none

theorem type_none (v : PV O) : (v.type == PT.none) = true ↔ v = .none := by
  cases v <;> simp [PV.type]

theorem excelSkip_kept (skip : Option Bool) (cells : List (PV O)) : excelSkip skip cells = false ↔ ExcelKept skip cells := by
  cases skip with
  | none => simp [excelSkip, ExcelKept]
  | some b =>
    cases b with
    | true =>
      dsimp only [excelSkip, ExcelKept]
      rw [List.all_eq_false]
      constructor
      · rintro ⟨v, hv, h⟩; exact ⟨v, hv, fun e => h ((type_none v).2 e)⟩
      · rintro ⟨v, hv, h⟩; exact ⟨v, hv, fun e => h ((type_none v).1 e)⟩
    | false =>
      dsimp only [excelSkip, ExcelKept]
      rw [List.any_eq_false]
      constructor
      · intro h v hv e; exact h v hv ((type_none v).2 e)
      · intro h v hv e; exact h v hv ((type_none v).1 e)

theorem excelPick_ok (fields : List (PyText × Nat)) (row : List (PV O)) (h : ∀ x ∈ fields, x.2 < row.length) :
    excelPick fields row = .ok (fields.map fun x => sheetCell row x.2) := by
  unfold excelPick
  induction fields with
  | nil => rfl
  | cons x l ih =>
    rw [List.mapM_cons, ih fun y hy => h y (List.mem_cons_of_mem _ hy)]
    have hx := h x List.mem_cons_self
    rw [List.getElem?_eq_getElem hx]
    simp [sheetCell, bind, Except.bind, pure, Except.pure, List.getElem?_eq_getElem hx]

theorem excelLoop_inv (R : XlsRuntime O) (hR : XlsRuntimeOk R) (ps : Nat) (hps : 0 < ps) (skip : Option Bool) (fields : List (PyText × Nat))
    (rows : List (List (PV O))) (hw : ∀ r ∈ rows, ∀ x ∈ fields, x.2 < r.length) (done : List (PyText × Nat → PV O))
    (hd : ∀ g ∈ done, ∀ x ∈ fields, XlsCell R (g x))
    (hc : ∀ r ∈ rows, excelSkip skip (fields.map fun x => sheetCell r x.2) = false → ∀ x ∈ fields, XlsCell R (sheetCell r x.2))
    (s : ExcelSt O) (hs : ExcelInv R ps fields done s) :
    ∃ s', excelLoop R ps skip fields s rows = .ok s' ∧
      ExcelInv R ps fields (done ++ (rows.filter fun r => !excelSkip skip (fields.map fun x => sheetCell r x.2)).map fun r x => sheetCell r x.2) s' := by
  induction rows generalizing done s with
  | nil => exact ⟨s, rfl, by simpa using hs⟩
  | cons r rows ih =>
    rw [excelLoop, excelPick_ok fields r (hw r List.mem_cons_self)]
    dsimp only [Except.bind]
    by_cases hk : excelSkip skip (fields.map fun x => sheetCell r x.2) = true
    · rw [if_pos hk]
      have := ih (fun r hr => hw r (List.mem_cons_of_mem _ hr)) done hd (fun r hr => hc r (List.mem_cons_of_mem _ hr)) s hs
      rw [List.filter_cons_of_neg (by simp [hk])]
      exact this
    · have hk' : excelSkip skip (fields.map fun x => sheetCell r x.2) = false := by simpa using hk
      rw [if_neg hk]
      have hcell := hc r List.mem_cons_self hk'
      obtain ⟨s1, h1, h2⟩ := excelPush_inv R hR ps hps fields done (fun x => sheetCell r x.2) hd hcell s hs
      rw [h1]
      dsimp only
      obtain ⟨s2, h3, h4⟩ := ih (fun r hr => hw r (List.mem_cons_of_mem _ hr)) (done ++ [fun x => sheetCell r x.2])
        (by
          intro g hg
          rcases List.mem_append.1 hg with hg | hg
          · exact hd g hg
          · rw [List.mem_singleton] at hg; subst hg; exact hcell)
        (fun r hr => hc r (List.mem_cons_of_mem _ hr)) s1 h2
      refine ⟨s2, h3, ?_⟩
      rw [List.filter_cons_of_pos (by simp [hk'])]
      simpa using h4


/-! ## C89: Excel sheets -/

/-- spec: the name a header cell gives to its column: nothing for an empty cell, a text as it is, and the text of any other value -/
def cellName (str_ : PV O → PyText) (v : PV O) : PyText :=
  match v with
  | .none => txt ""
  | .str t => t
  | v => str_ v

theorem headerText_eq (str_ : PV O → PyText) : headerText str_ = cellName str_ := by
  funext v
  cases v <;> rfl

/-- the names of the columns of a sheet: the texts of the header row, or 0, 1, 2, … -/
def excelHeaders (str_ : PV O → PyText) (headers : Bool) (header : List (PV O)) : List PyText :=
  if headers then header.map fun c => cellName str_ (stripEsc c) else (List.range header.length).map natText

/-- what a call asks for: every column at its place, or the wanted names, each at the first place it has in the sheet -/
def excelWanted (names : List PyText) : Option (List PyText) → List (PyText × Nat)
  | none => names.zipIdx
  | some cols => cols.map fun k => (k, names.idxOf k)

theorem wantedFields_ok (names cols : List PyText) (h : ∀ k ∈ cols, k ∈ names) : wantedFields names cols = .ok (cols.map fun k => (k, names.idxOf k)) := by
  induction cols with
  | nil => rfl
  | cons k r ih => rw [wantedFields, if_pos (h k List.mem_cons_self), ih fun x hx => h x (List.mem_cons_of_mem _ hx)]; rfl

theorem wantedFields_missing (names cols : List PyText) (k : PyText) (hk : k ∈ cols) (h : k ∉ names) : wantedFields names cols = .error .value := by
  induction cols with
  | nil => cases hk
  | cons a r ih =>
    rw [wantedFields]
    by_cases ha : a ∈ names
    · rw [if_pos ha]
      rcases List.mem_cons.1 hk with rfl | hk
      · exact absurd ha h
      · rw [ih hk]; rfl
    · rw [if_neg ha]

theorem excelFields_ok (str_ : PV O → PyText) (o : SheetOpts) (header : List (PV O))
    (hcols : ∀ cols, o.columns = some cols → ∀ k ∈ cols, k ∈ excelHeaders str_ o.headers header) :
    excelFields str_ o header = .ok (nameLoop [] (excelWanted (excelHeaders str_ o.headers header) o.columns)) := by
  unfold excelFields
  dsimp only
  rw [headerText_eq]
  cases hc : o.columns with
  | none => rfl
  | some cols =>
    dsimp only
    have := wantedFields_ok _ cols (hcols cols hc)
    unfold excelHeaders at this ⊢
    rw [this]; rfl

/-- the rows a call imports: after the header row and `start` rows, `limit + 1` rows, without those left out by `skip_empty` -/
noncomputable def excelImported (o : SheetOpts) (fields : List (PyText × Nat)) (sheet : List (List (PV O))) : List (List (PV O)) :=
  open Classical in
  ((sheet.drop (o.headerRow + (if o.headers then 1 else 0) + o.start.toNat)).take (o.limit.toNat + 1)).filter
    fun r => decide (ExcelKept o.skip (fields.map fun x => sheetCell r x.2))

theorem excelImported_none (o : SheetOpts) (h : o.skip = none) (fields : List (PyText × Nat)) (sheet : List (List (PV O))) :
    excelImported o fields sheet = (sheet.drop (o.headerRow + (if o.headers then 1 else 0) + o.start.toNat)).take (o.limit.toNat + 1) := by
  unfold excelImported
  apply List.filter_eq_self.2
  intro r _
  rw [h]
  exact @decide_eq_true _ (Classical.propDecidable _) trivial

theorem excelRows_eq (o : SheetOpts) (sheet : List (List (PV O))) :
    excelRows o sheet = (sheet.drop (o.headerRow + (if o.headers then 1 else 0) + o.start.toNat)).take (o.limit.toNat + 1) := by
  unfold excelRows iterRows
  dsimp only
  generalize (if o.headers = true then 1 else 0) = h
  have e : ∀ n, sheet.take (min n sheet.length) = sheet.take n := by
    intro n
    rcases Nat.le_total n sheet.length with hn | hn
    · rw [Nat.min_eq_left hn]
    · rw [Nat.min_eq_right hn, List.take_of_length_le hn, List.take_of_length_le (le_refl _)]
  rw [e, List.drop_take]
  congr 1
  · omega
  · congr 1; omega

theorem positions_cells (P : Nat → Prop) (wanted got : List (PyText × Nat)) (h : NamesOk wanted got) (hw : ∀ x ∈ wanted, P x.2) : ∀ x ∈ got, P x.2 := by
  intro x hx
  have : x.2 ∈ got.map (·.2) := List.mem_map.2 ⟨x, hx, rfl⟩
  rw [h.positions] at this
  obtain ⟨y, hy, e⟩ := List.mem_map.1 this
  rw [← e]; exact hw y hy


theorem excelWanted_lt (str_ : PV O → PyText) (o : SheetOpts) (header : List (PV O))
    (hcols : ∀ cols, o.columns = some cols → ∀ k ∈ cols, k ∈ excelHeaders str_ o.headers header) :
    ∀ x ∈ excelWanted (excelHeaders str_ o.headers header) o.columns, x.2 < header.length := by
  have hl : (excelHeaders str_ o.headers header).length = header.length := by unfold excelHeaders; split_ifs <;> simp
  intro x hx
  cases hc : o.columns with
  | none =>
    rw [hc] at hx
    dsimp only [excelWanted] at hx
    have := (List.mem_zipIdx hx).2.1
    rw [hl] at this; omega
  | some cols =>
    rw [hc] at hx
    dsimp only [excelWanted] at hx
    obtain ⟨k, hk, rfl⟩ := List.mem_map.1 hx
    rw [← hl]
    exact List.idxOf_lt_length_iff.2 (hcols cols hc k hk)

theorem excelRead_eq (str_ : PV O → PyText) (R : XlsRuntime O) (hR : XlsRuntimeOk R) (ps : Nat) (hps : 0 < ps) (o : SheetOpts)
    (hstart : 0 ≤ o.start) (hlimit : 0 < o.limit) (sheet : List (List (PV O))) (header : List (PV O)) (hh : sheet[o.headerRow]? = some header)
    (hw : ∀ r ∈ sheet, r.length = header.length)
    (hcols : ∀ cols, o.columns = some cols → ∀ k ∈ cols, k ∈ excelHeaders str_ o.headers header)
    (hc : ∀ r ∈ (sheet.drop (o.headerRow + (if o.headers then 1 else 0) + o.start.toNat)).take (o.limit.toNat + 1),
      ∀ x ∈ excelWanted (excelHeaders str_ o.headers header) o.columns, XlsCell R (sheetCell r x.2)) :
    excelRead str_ R ps o sheet = .ok ((nameLoop [] (excelWanted (excelHeaders str_ o.headers header) o.columns)).map fun x => (x.1, paginate ps
      ((excelImported o (nameLoop [] (excelWanted (excelHeaders str_ o.headers header) o.columns)) sheet).map fun r => sheetCell r x.2))) := by
  have hlt := positions_cells (· < header.length) _ _ (nameLoop_ok _) (excelWanted_lt str_ o header hcols)
  have hf := excelFields_ok str_ o header hcols
  have hc' := positions_cells (fun i => ∀ r ∈ excelRows o sheet, XlsCell R (sheetCell r i)) _ _ (nameLoop_ok _)
    fun x hx r hr => hc r (by rw [← excelRows_eq]; exact hr) x hx
  generalize nameLoop [] (excelWanted (excelHeaders str_ o.headers header) o.columns) = fields at *
  have hsub : ∀ r ∈ excelRows o sheet, r ∈ sheet := by
    intro r hr
    rw [excelRows_eq] at hr
    exact List.mem_of_mem_drop (List.mem_of_mem_take hr)
  have hpos : ∀ r ∈ excelRows o sheet, ∀ x ∈ fields, x.2 < r.length := fun r hr x hx => by rw [hw r (hsub r hr)]; exact hlt x hx
  obtain ⟨s, h1, h2⟩ := excelLoop_inv R hR ps hps o.skip fields (excelRows o sheet) hpos [] (by simp)
    (by
      intro r hr _ x hx
      exact hc' x hx r hr)
    ⟨0, none, fields.map fun x => (x.1, [])⟩
    ⟨rfl, [], [], rfl, by simp, by simp, by simp [paginate, paginateLoop, show (ps - 1) / ps = 0 from Nat.div_eq_of_lt (by omega)], Or.inl ⟨rfl, rfl⟩⟩
  unfold excelRead
  rw [if_pos hstart, if_pos hlimit, hh]
  dsimp only
  rw [hf]
  dsimp only [Except.bind]
  rw [h1]
  dsimp only
  rw [excelClose_inv R hR ps hps fields _ ?_ s h2]
  · congr 1
    apply List.map_congr_left
    intro x _
    congr 2
    rw [List.nil_append, List.map_map]
    unfold excelImported
    rw [← excelRows_eq]
    have : (excelRows o sheet).filter (fun r => !excelSkip o.skip (fields.map fun x => sheetCell r x.2)) =
        (excelRows o sheet).filter (fun r => @decide (ExcelKept o.skip (fields.map fun x => sheetCell r x.2)) (Classical.propDecidable _)) := by
      apply List.filter_congr
      intro r _
      have := excelSkip_kept o.skip (fields.map fun x => sheetCell r x.2)
      cases hk : excelSkip o.skip (fields.map fun x => sheetCell r x.2) with
      | false => simp [this.1 hk]
      | true =>
        have : ¬ ExcelKept o.skip (fields.map fun x => sheetCell r x.2) := fun h => by rw [this.2 h] at hk; cases hk
        simp [this]
    rw [this]
    rfl
  · intro g hg x hx
    rw [List.nil_append] at hg
    obtain ⟨r, hr, rfl⟩ := List.mem_map.1 hg
    exact hc' x hx r (List.mem_of_mem_filter hr)


/-- C89: an Excel import gives, for every wanted column in order, a column with a name of its own that holds the cells of the imported
rows in order, in pages of `PAGE_SIZE` values -/
theorem C89_excel (str_ : PV O → PyText) (R : XlsRuntime O) (hR : XlsRuntimeOk R) (ps : Nat) (hps : 0 < ps) (o : SheetOpts)
    (hstart : 0 ≤ o.start) (hlimit : 0 < o.limit) (sheet : List (List (PV O))) (header : List (PV O)) (hh : sheet[o.headerRow]? = some header)
    (hw : ∀ r ∈ sheet, r.length = header.length)
    (hcols : ∀ cols, o.columns = some cols → ∀ k ∈ cols, k ∈ excelHeaders str_ o.headers header)
    (hc : ∀ r ∈ (sheet.drop (o.headerRow + (if o.headers then 1 else 0) + o.start.toNat)).take (o.limit.toNat + 1),
      ∀ x ∈ excelWanted (excelHeaders str_ o.headers header) o.columns, XlsCell R (sheetCell r x.2)) :
    ∃ fields, NamesOk (excelWanted (excelHeaders str_ o.headers header) o.columns) fields ∧
      excelRead str_ R ps o sheet = .ok (fields.map fun x => (x.1, paginate ps ((excelImported o fields sheet).map fun r => sheetCell r x.2))) :=
  ⟨_, nameLoop_ok _, excelRead_eq str_ R hR ps hps o hstart hlimit sheet header hh hw hcols hc⟩

/-- a sheet with a header row, a row of numbers, an empty row and a row with a line break in a text -/
def demoSheet : List (List (PV Unit)) :=
  [[.str (txt "a"), .str (txt "b"), .str (txt "a")],
   [.int 1, .float (.fin 2), .none],
   [.none, .none, .none],
   [.str [120, 10, 121], .bool true, .int (-7)]]

example : ∃ fields, NamesOk (excelWanted (excelHeaders (fun _ => []) true (demoSheet.getD 0 [])) none) fields ∧
    excelRead (fun _ => []) exactXls 2 { skip := some true } demoSheet =
      .ok (fields.map fun x => (x.1, paginate 2 ((excelImported { skip := some true } fields demoSheet).map fun r => sheetCell r x.2))) := by
  refine C89_excel _ exactXls exactXls_ok 2 (by decide) { skip := some true } (by decide) (by decide) demoSheet _ rfl (by decide +kernel) (by simp) ?_
  intro r hr x hx
  have hr' : r ∈ demoSheet.drop 1 := hr
  have hx' : x.2 < 3 := excelWanted_lt (fun _ => []) { skip := some true } (demoSheet.getD 0 []) (by simp) x hx
  have hcell : ∀ r ∈ demoSheet.drop 1, ∀ v ∈ r.map stripEsc, XlsCell exactXls v := by
    intro r hr v hv
    simp only [demoSheet, List.drop, List.mem_cons, List.not_mem_nil, or_false] at hr
    rcases hr with rfl | rfl | rfl <;>
      · simp only [List.map_cons, List.map_nil, stripEsc, List.mem_cons, List.not_mem_nil, or_false] at hv
        rcases hv with rfl | rfl | rfl <;> first
          | trivial
          | exact ⟨by decide, by decide⟩
          | exact show List.length _ < _ by decide +kernel
          | exact ⟨by simp [Scalar], fun b hb => by
              rw [show utf8Encode ([120, 10, 121].filter fun c => !(c == 9 || c == 10 || c == 13)) = .ok [120, 121] by decide] at hb; cases hb; decide⟩
  refine hcell r hr' _ ?_
  have hl : r.length = 3 := by revert r; decide +kernel
  unfold sheetCell
  rw [List.getD_eq_getElem?_getD, List.getElem?_eq_getElem (by omega), Option.getD_some]
  exact List.mem_map.2 ⟨_, List.getElem_mem _, rfl⟩

example : (excelRead (fun _ => []) exactXls 2 { skip := some true } demoSheet).toOption.map (fun t => t.map fun c => (c.1, c.2.map List.length)) =
    some [(txt "a", [2]), (txt "b", [2]), (txt "a_1", [2])] := by decide +kernel


theorem excelRead_start (str_ : PV O → PyText) (R : XlsRuntime O) (ps : Nat) (o : SheetOpts) (sheet : List (List (PV O))) (h : o.start < 0 ∨ o.limit ≤ 0) :
    excelRead str_ R ps o sheet = .error .value := by
  unfold excelRead
  split_ifs with h1 h2 <;> first | rfl | (exfalso; omega)

/-- C89: a `start` below 0 and a `limit` below 1 are refused -/
theorem C89_bad_range (str_ : PV O → PyText) (R : XlsRuntime O) (ps : Nat) (o : SheetOpts) (sheet : List (List (PV O))) (h : o.start < 0 ∨ o.limit ≤ 0) :
    excelRead str_ R ps o sheet = .error .value := excelRead_start str_ R ps o sheet h

/-- C89: without a header row in the sheet the result is a table without columns, whatever columns are wanted -/
theorem C89_no_header (str_ : PV O → PyText) (R : XlsRuntime O) (ps : Nat) (o : SheetOpts) (hstart : 0 ≤ o.start) (hlimit : 0 < o.limit)
    (sheet : List (List (PV O))) (h : sheet.length ≤ o.headerRow) : excelRead str_ R ps o sheet = .ok [] := by
  unfold excelRead
  rw [if_pos hstart, if_pos hlimit, List.getElem?_eq_none h]

/-- C89: a wanted column that the sheet does not have raises ValueError -/
theorem C89_missing (str_ : PV O → PyText) (R : XlsRuntime O) (ps : Nat) (o : SheetOpts) (hstart : 0 ≤ o.start) (hlimit : 0 < o.limit)
    (sheet : List (List (PV O))) (header : List (PV O)) (hh : sheet[o.headerRow]? = some header) (cols : List PyText) (hcols : o.columns = some cols)
    (k : PyText) (hk : k ∈ cols) (hm : k ∉ excelHeaders str_ o.headers header) : excelRead str_ R ps o sheet = .error .value := by
  unfold excelRead
  rw [if_pos hstart, if_pos hlimit, hh]
  dsimp only
  unfold excelFields
  rw [hcols]
  dsimp only
  have := wantedFields_missing _ cols k hk hm
  unfold excelHeaders at this
  rw [headerText_eq, this]
  rfl

/-- the documented meaning of `limit`: at most so many rows are imported -/
def C89_limit_statement : Prop := ∀ (str_ : PV Unit → PyText) (R : XlsRuntime Unit), XlsRuntimeOk R → ∀ (ps : Nat), 0 < ps → ∀ (o : SheetOpts)
  (sheet : List (List (PV Unit))) (t : List (PyText × Pages (PV Unit))), excelRead str_ R ps o sheet = .ok t → ∀ c ∈ t, (colLen c.2 : Int) ≤ o.limit

/-- C89: `limit=1` imports two rows -/
theorem C89_limit_fails : ¬ C89_limit_statement := by
  intro h
  have h1 : (excelRead (fun _ => []) exactXls 5 { limit := 1 } ([[.str (txt "a")], [.int 1], [.int 2], [.int 3]])).toOption.map
      (fun t => t.map fun c => (c.1, colLen c.2)) = some [(txt "a", 2)] := by decide +kernel
  cases hr : excelRead (fun _ => []) exactXls 5 { limit := 1 } ([[.str (txt "a")], [.int 1], [.int 2], [.int 3]]) with
  | error e => rw [hr] at h1; cases h1
  | ok t =>
    rw [hr] at h1
    simp only [Except.toOption, Option.map_some, Option.some.injEq] at h1
    have hm : (txt "a", 2) ∈ t.map fun c => (c.1, colLen c.2) := by rw [h1]; simp
    obtain ⟨c, hc, e⟩ := List.mem_map.1 hm
    have := h (fun _ => []) exactXls exactXls_ok 5 (by decide) { limit := 1 } _ t hr c hc
    have e2 : colLen c.2 = 2 := (Prod.mk.inj e).2
    rw [e2] at this
    norm_num at this

/-- C89, what holds: one row more than `limit` at most; missing: the limit itself -/
theorem C89_limit_partial (str_ : PV O → PyText) (R : XlsRuntime O) (hR : XlsRuntimeOk R) (ps : Nat) (hps : 0 < ps) (o : SheetOpts)
    (hstart : 0 ≤ o.start) (hlimit : 0 < o.limit) (sheet : List (List (PV O))) (header : List (PV O)) (hh : sheet[o.headerRow]? = some header)
    (hw : ∀ r ∈ sheet, r.length = header.length)
    (hcols : ∀ cols, o.columns = some cols → ∀ k ∈ cols, k ∈ excelHeaders str_ o.headers header)
    (hc : ∀ r ∈ (sheet.drop (o.headerRow + (if o.headers then 1 else 0) + o.start.toNat)).take (o.limit.toNat + 1),
      ∀ x ∈ excelWanted (excelHeaders str_ o.headers header) o.columns, XlsCell R (sheetCell r x.2))
    (hskip : o.skip = none) :
    ∃ t, excelRead str_ R ps o sheet = .ok t ∧ ∀ c ∈ t, (colLen c.2 : Int) =
      max 0 (min (o.limit + 1) (sheet.length - o.headerRow - (if o.headers then 1 else 0) - o.start)) := by
  obtain ⟨fields, _, h⟩ := C89_excel str_ R hR ps hps o hstart hlimit sheet header hh hw hcols hc
  refine ⟨_, h, ?_⟩
  intro c hm
  obtain ⟨x, _, rfl⟩ := List.mem_map.1 hm
  dsimp only
  rw [colLen_eq, paginate_flatten hps, List.length_map]
  rw [excelImported_none o hskip, List.length_take, List.length_drop]
  cases o.headers <;> simp only [if_true, if_false, Bool.false_eq_true] <;> omega

/-! ### cells that cannot be stored -/

theorem excelWriteRow_raises {β : Type} (R : XlsRuntime O) (fields : List β) (F : β → List Nat) (g : β → PV O) (x : β) (hx : x ∈ fields)
    (h : ∃ e, xlsRecord R (g x) = .error e) : ∃ e, excelWriteRow R (fields.map F) (fields.map g) = .error e := by
  induction fields with
  | nil => cases hx
  | cons y l ih =>
    rw [List.map_cons, List.map_cons, excelWriteRow]
    cases hy : xlsRecord R (g y) with
    | error e => exact ⟨e, rfl⟩
    | ok b =>
      rcases List.mem_cons.1 hx with rfl | hx
      · obtain ⟨e, he⟩ := h; rw [hy] at he; cases he
      · obtain ⟨e, he⟩ := ih hx
        exact ⟨e, by dsimp only [Except.bind]; rw [he]⟩

theorem excelPush_raises (R : XlsRuntime O) (hR : XlsRuntimeOk R) (ps : Nat) (hps : 0 < ps) (fields : List (PyText × Nat)) (done : List (PyText × Nat → PV O))
    (g : PyText × Nat → PV O) (hc : ∀ g ∈ done, ∀ x ∈ fields, XlsCell R (g x)) (x : PyText × Nat) (hx : x ∈ fields)
    (h : ∃ e, xlsRecord R (g x) = .error e) (s : ExcelSt O) (hs : ExcelInv R ps fields done s) :
    ∃ e, excelPush R ps s (fields.map g) = .error e := by
  have hclose := excelClose_inv R hR ps hps fields done hc s hs
  obtain ⟨closed, opened, hd, h1, h2, h3, h4⟩ := hs.run
  unfold excelPush excelOpen
  rw [if_neg (by omega)]
  by_cases hm : s.idx % ps = 0
  · rw [if_pos hm, hclose]
    dsimp only [Except.bind, Option.getD]
    have e : (s.cols.map fun _ => ([] : List Nat)) = fields.map fun _ => [] := by rw [h3, List.map_map]; rfl
    obtain ⟨e', he⟩ := excelWriteRow_raises R fields (fun _ => []) g x hx h
    rw [e, he]; exact ⟨e', rfl⟩
  · rw [if_neg hm]
    rcases h4 with ⟨e1, _⟩ | ⟨e1, F, e2, e3⟩
    · exfalso; apply hm; rw [hs.idx, e1]; simp
    · dsimp only [Except.bind]
      rw [e2]
      obtain ⟨e', he⟩ := excelWriteRow_raises R fields F g x hx h
      dsimp only [Option.getD]
      rw [he]; exact ⟨e', rfl⟩

theorem excelLoop_raises (R : XlsRuntime O) (hR : XlsRuntimeOk R) (ps : Nat) (hps : 0 < ps) (skip : Option Bool) (fields : List (PyText × Nat))
    (rows : List (List (PV O))) (hw : ∀ r ∈ rows, ∀ x ∈ fields, x.2 < r.length) (done : List (PyText × Nat → PV O))
    (hd : ∀ g ∈ done, ∀ x ∈ fields, XlsCell R (g x))
    (hc : ∀ r ∈ rows, ∀ x ∈ fields, XlsCell R (sheetCell r x.2) ∨ ∃ e, xlsRecord R (sheetCell r x.2) = .error e)
    (r : List (PV O)) (hr : r ∈ rows) (hk : excelSkip skip (fields.map fun x => sheetCell r x.2) = false) (x : PyText × Nat) (hx : x ∈ fields)
    (hbad : ∃ e, xlsRecord R (sheetCell r x.2) = .error e)
    (s : ExcelSt O) (hs : ExcelInv R ps fields done s) : ∃ e, excelLoop R ps skip fields s rows = .error e := by
  induction rows generalizing done s with
  | nil => cases hr
  | cons a rows ih =>
    rw [excelLoop, excelPick_ok fields a (hw a List.mem_cons_self)]
    dsimp only [Except.bind]
    have hw' := fun b hb => hw b (List.mem_cons_of_mem a hb)
    have hc' := fun b hb => hc b (List.mem_cons_of_mem a hb)
    by_cases ha : excelSkip skip (fields.map fun x => sheetCell a x.2) = true
    · rw [if_pos ha]
      rcases List.mem_cons.1 hr with rfl | hr
      · rw [ha] at hk; cases hk
      · exact ih hw' done hd hc' hr s hs
    · rw [if_neg ha]
      by_cases hall : ∀ y ∈ fields, XlsCell R (sheetCell a y.2)
      · obtain ⟨s1, h1, h2⟩ := excelPush_inv R hR ps hps fields done (fun x => sheetCell a x.2) hd hall s hs
        rw [h1]
        rcases List.mem_cons.1 hr with rfl | hr
        · exfalso
          obtain ⟨e, he⟩ := hbad
          obtain ⟨b, hb⟩ := xlsRecord_ok R hR _ (hall x hx)
          rw [hb] at he; cases he
        · exact ih hw' (done ++ [fun x => sheetCell a x.2]) (by
            intro g hg
            rcases List.mem_append.1 hg with hg | hg
            · exact hd g hg
            · rw [List.mem_singleton] at hg; subst hg; exact hall) hc' hr s1 h2
      · push Not at hall
        obtain ⟨y, hy, hny⟩ := hall
        have hy' : ∃ e, xlsRecord R (sheetCell a y.2) = .error e := (hc a List.mem_cons_self y hy).resolve_left hny
        obtain ⟨e, he⟩ := excelPush_raises R hR ps hps fields done (fun x => sheetCell a x.2) hd y hy hy' s hs
        exact ⟨e, by rw [he]⟩

/-- cells that the importer refuses -/
def XlsBad : PV O → Prop
  | .int z => ¬ (-9223372036854775808 ≤ z ∧ z < 9223372036854775808)
  | .timedelta _ _ _ => True
  | .bytes _ => True
  | .other _ => True
  | _ => False

theorem xlsRecord_bad (R : XlsRuntime O) (v : PV O) (h : XlsBad v) : ∃ e, xlsRecord R v = .error e := by
  cases v with
  | int z => exact ⟨.value, by rw [xlsRecord, xlsPayload, packQ, if_neg h]; rfl⟩
  | timedelta a b c => exact ⟨.other, rfl⟩
  | bytes b => exact ⟨.other, rfl⟩
  | other b => exact ⟨.other, rfl⟩
  | _ => exact h.elim

/-- C89: one imported cell that cannot be stored (an int of more than 64 bits, a timedelta, another type) stops the whole import with an
exception, nothing else is imported in its place -/
theorem C89_raises (str_ : PV O → PyText) (R : XlsRuntime O) (hR : XlsRuntimeOk R) (ps : Nat) (hps : 0 < ps) (o : SheetOpts)
    (hstart : 0 ≤ o.start) (hlimit : 0 < o.limit) (sheet : List (List (PV O))) (header : List (PV O)) (hh : sheet[o.headerRow]? = some header)
    (hw : ∀ r ∈ sheet, r.length = header.length)
    (hcols : ∀ cols, o.columns = some cols → ∀ k ∈ cols, k ∈ excelHeaders str_ o.headers header)
    (hc : ∀ r ∈ (sheet.drop (o.headerRow + (if o.headers then 1 else 0) + o.start.toNat)).take (o.limit.toNat + 1),
      ∀ x ∈ excelWanted (excelHeaders str_ o.headers header) o.columns, XlsCell R (sheetCell r x.2) ∨ XlsBad (sheetCell r x.2))
    (r : List (PV O)) (hr : r ∈ (sheet.drop (o.headerRow + (if o.headers then 1 else 0) + o.start.toNat)).take (o.limit.toNat + 1))
    (hk : ExcelKept o.skip ((excelWanted (excelHeaders str_ o.headers header) o.columns).map fun x => sheetCell r x.2))
    (x : PyText × Nat) (hx : x ∈ excelWanted (excelHeaders str_ o.headers header) o.columns) (hbad : XlsBad (sheetCell r x.2)) :
    ∃ e, excelRead str_ R ps o sheet = .error e := by
  have hlt := positions_cells (· < header.length) _ _ (nameLoop_ok _) (excelWanted_lt str_ o header hcols)
  have hf := excelFields_ok str_ o header hcols
  have hc' := positions_cells (fun i => ∀ r ∈ excelRows o sheet, XlsCell R (sheetCell r i) ∨ ∃ e, xlsRecord R (sheetCell r i) = .error e) _ _ (nameLoop_ok _)
    fun x hx r hr => (hc r (by rw [← excelRows_eq]; exact hr) x hx).imp id (xlsRecord_bad R _)
  have hpos := (nameLoop_ok (excelWanted (excelHeaders str_ o.headers header) o.columns)).positions
  have hk' : ExcelKept o.skip ((nameLoop [] (excelWanted (excelHeaders str_ o.headers header) o.columns)).map fun x => sheetCell r x.2) := by
    have e : ∀ l : List (PyText × Nat), (l.map fun x => sheetCell r x.2) = (l.map (·.2)).map (sheetCell r) := by intro l; rw [List.map_map]; rfl
    rw [e, hpos, ← e]; exact hk
  obtain ⟨y, hy, hy2⟩ : ∃ y ∈ nameLoop [] (excelWanted (excelHeaders str_ o.headers header) o.columns), y.2 = x.2 := by
    have : x.2 ∈ (nameLoop [] (excelWanted (excelHeaders str_ o.headers header) o.columns)).map (·.2) := by
      rw [hpos]; exact List.mem_map.2 ⟨x, hx, rfl⟩
    exact List.mem_map.1 this
  generalize nameLoop [] (excelWanted (excelHeaders str_ o.headers header) o.columns) = fields at *
  have hsub : ∀ r ∈ excelRows o sheet, r ∈ sheet := by
    intro r hr
    rw [excelRows_eq] at hr
    exact List.mem_of_mem_drop (List.mem_of_mem_take hr)
  obtain ⟨e, he⟩ := excelLoop_raises R hR ps hps o.skip fields (excelRows o sheet)
    (fun r hr x hx => by rw [hw r (hsub r hr)]; exact hlt x hx) [] (by simp) (fun r hr x hx => hc' x hx r hr) r (by rw [excelRows_eq]; exact hr)
    ((excelSkip_kept _ _).2 hk') y hy (by rw [hy2]; exact xlsRecord_bad R _ hbad)
    ⟨0, none, fields.map fun x => (x.1, [])⟩
    ⟨rfl, [], [], rfl, by simp, by simp, by simp [paginate, paginateLoop, show (ps - 1) / ps = 0 from Nat.div_eq_of_lt (by omega)], Or.inl ⟨rfl, rfl⟩⟩
  refine ⟨e, ?_⟩
  unfold excelRead
  rw [if_pos hstart, if_pos hlimit, hh]
  dsimp only
  rw [hf]
  dsimp only [Except.bind]
  rw [he]

example : excelRead (fun _ => []) exactXls 2 {} [[.str (txt "a")], [.int 1], [.timedelta 1 0 0], [.int 2]] = .error .other := by decide +kernel

/-! ### the size of the sheet -/

/-- the letters of column `n` (A is 1, Z is 26, AA is 27) -/
def colLetters (n : Nat) : List Char :=
  if _h : n = 0 then [] else colLetters ((n - 1) / 26) ++ [Char.ofNat (65 + (n - 1) % 26)]
termination_by n
decreasing_by exact Nat.lt_of_le_of_lt (Nat.div_le_self _ _) (by omega)

theorem letterVal_ofNat (k : Nat) (h : k < 26) : letterVal (Char.ofNat (65 + k)) = k + 1 := by
  revert k; decide

/-- C89: the width of a sheet is computed from the letters of its cells: the letters of column `n` count as `n` -/
theorem C89_letters (n : Nat) : calcColCount (colLetters n) = n := by
  induction n using Nat.strong_induction_on with
  | _ n ih =>
    rw [colLetters]
    split_ifs with h
    · subst h; rfl
    · rw [calcColCount_append, ih _ (Nat.lt_of_le_of_lt (Nat.div_le_self _ _) (by omega)), calcColCount_cons, calcColCount_nil,
        letterVal_ofNat _ (Nat.mod_lt _ (by omega))]
      push_cast
      simp only [List.length_singleton, List.length_nil, pow_one, pow_zero]
      omega

theorem trueDims_fold (cells : List (List Char × Int)) (m : Int × Int) :
    let d := cells.foldl (fun m c => (max m.1 (calcColCount c.1), max m.2 c.2)) m
    (m.1 ≤ d.1 ∧ m.2 ≤ d.2) ∧ (∀ c ∈ cells, calcColCount c.1 ≤ d.1 ∧ c.2 ≤ d.2) ∧
    (d.1 = m.1 ∨ ∃ c ∈ cells, d.1 = calcColCount c.1) ∧ (d.2 = m.2 ∨ ∃ c ∈ cells, d.2 = c.2) := by
  induction cells generalizing m with
  | nil => simp
  | cons c l ih =>
    obtain ⟨h1, h2, h3, h4⟩ := ih (max m.1 (calcColCount c.1), max m.2 c.2)
    dsimp only at *
    rw [List.foldl_cons]
    refine ⟨⟨le_trans (le_max_left _ _) h1.1, le_trans (le_max_left _ _) h1.2⟩, ?_, ?_, ?_⟩
    · intro d hd
      rcases List.mem_cons.1 hd with rfl | hd
      · exact ⟨le_trans (le_max_right _ _) h1.1, le_trans (le_max_right _ _) h1.2⟩
      · exact h2 d hd
    · rcases h3 with h3 | ⟨d, hd, e⟩
      · rcases le_total m.1 (calcColCount c.1) with h | h
        · exact Or.inr ⟨c, List.mem_cons_self, by rw [h3, max_eq_right h]⟩
        · exact Or.inl (by rw [h3, max_eq_left h])
      · exact Or.inr ⟨d, List.mem_cons_of_mem _ hd, e⟩
    · rcases h4 with h4 | ⟨d, hd, e⟩
      · rcases le_total m.2 c.2 with h | h
        · exact Or.inr ⟨c, List.mem_cons_self, by rw [h4, max_eq_right h]⟩
        · exact Or.inl (by rw [h4, max_eq_left h])
      · exact Or.inr ⟨d, List.mem_cons_of_mem _ hd, e⟩

/-- C89: the computed size of the sheet is the last column and the last row with a cell; `(col, row)` are the positions of the cells -/
theorem C89_dims (cells : List (Nat × Nat)) :
    let d := calcTrueDims (cells.map fun c => (colLetters c.1, (c.2 : Int)))
    (∀ c ∈ cells, (c.1 : Int) ≤ d.1 ∧ (c.2 : Int) ≤ d.2) ∧ (cells ≠ [] → (∃ c ∈ cells, d.1 = c.1) ∧ ∃ c ∈ cells, d.2 = c.2) ∧ (cells = [] → d = (0, 0)) := by
  obtain ⟨h1, h2, h3, h4⟩ := trueDims_fold (cells.map fun c => (colLetters c.1, (c.2 : Int))) (0, 0)
  dsimp only [calcTrueDims] at *
  generalize (cells.map fun c => (colLetters c.1, (c.2 : Int))).foldl (fun m c => (max m.1 (calcColCount c.1), max m.2 c.2)) ((0 : Int), (0 : Int)) = d at *
  have hall : ∀ c ∈ cells, (c.1 : Int) ≤ d.1 ∧ (c.2 : Int) ≤ d.2 := by
    intro c hc
    have := h2 _ (List.mem_map.2 ⟨c, hc, rfl⟩)
    rw [C89_letters] at this
    exact this
  refine ⟨hall, ?_, ?_⟩
  · intro hne
    obtain ⟨c0, hc0⟩ := List.exists_mem_of_ne_nil _ hne
    constructor
    · rcases h3 with h3 | ⟨c, hc, e⟩
      · refine ⟨c0, hc0, ?_⟩
        have := (hall c0 hc0).1
        omega
      · obtain ⟨c', hc', rfl⟩ := List.mem_map.1 hc
        exact ⟨c', hc', by rw [e, C89_letters]⟩
    · rcases h4 with h4 | ⟨c, hc, e⟩
      · refine ⟨c0, hc0, ?_⟩
        have := (hall c0 hc0).2
        omega
      · obtain ⟨c', hc', rfl⟩ := List.mem_map.1 hc
        exact ⟨c', hc', e⟩
  · intro he
    subst he
    rcases h3 with h3 | ⟨c, hc, e⟩
    · rcases h4 with h4 | ⟨c, hc, e⟩
      · exact Prod.ext h3 h4
      · cases hc
    · cases hc

example : colLetters 703 = ['A', 'A', 'A'] := by decide +kernel
example : calcTrueDims [(['B'], 7), (['A', 'A'], 3)] = (27, 7) := by decide +kernel


/-! ## C90: ODS sheets -/

/-- the names of the columns of an ODS sheet: the texts of the header row, or _1, _2, … -/
def odsHeaders (str_ : PV O → PyText) (headers : Bool) (header : List (PV O)) : List PyText :=
  if headers then header.map (cellName str_) else (List.range header.length).map fun i => 95 :: natText (i + 1)

/-- the columns a call imports: those whose name is wanted, in the order of the sheet; names the sheet does not have are ignored -/
def odsWanted (names : List PyText) : Option (List PyText) → List (PyText × Nat)
  | none => names.zipIdx
  | some cols => names.zipIdx.filter fun x => decide (x.1 ∈ cols)

/-- `skip_empty` of the ODS reader: looks at the whole row, an empty text counts as empty -/
def OdsKept (skip : Option Bool) (row : List (PV O)) : Prop :=
  match skip with
  | none => True
  | some true => ∃ v ∈ row, v ≠ .none ∧ v ≠ .str []
  | some false => ∀ v ∈ row, v ≠ .none ∧ v ≠ .str []

theorem odsEmpty_iff (v : PV O) : (!odsEmpty v) = true ↔ v ≠ .none ∧ v ≠ .str [] := by
  cases v with
  | str t => cases t <;> simp [odsEmpty]
  | _ => simp [odsEmpty]

theorem zipIdx_filter_map {α : Type} (p : α → Bool) (keep : Nat) (l : List α) (k : Nat) (hk : keep ≤ k) :
    ((l.zipIdx k).filter fun r => decide (r.2 < keep) || p r.1).map (·.1) = l.filter p := by
  induction l generalizing k with
  | nil => rfl
  | cons a l ih =>
    rw [List.zipIdx_cons, List.filter_cons, List.filter_cons]
    have : decide (k < keep) = false := by simp; omega
    simp only [this, Bool.false_or]
    split_ifs <;> simp [ih (k + 1) (by omega)]

theorem zipIdx_filter_keep {α : Type} (p : α → Bool) (keep : Nat) (l : List α) (k : Nat) (hk : k ≤ keep) :
    ((l.zipIdx k).filter fun r => decide (r.2 < keep) || p r.1).map (·.1) = l.take (keep - k) ++ (l.drop (keep - k)).filter p := by
  induction l generalizing k with
  | nil => simp
  | cons a l ih =>
    rcases Nat.lt_or_ge k keep with h | h
    · obtain ⟨m, hm⟩ : ∃ m, keep - k = m + 1 := ⟨keep - k - 1, by omega⟩
      rw [List.zipIdx_cons, List.filter_cons_of_pos (by simp [h]), List.map_cons, ih (k + 1) (by omega), hm, List.take_succ_cons, List.drop_succ_cons,
        show keep - (k + 1) = m by omega]
      rfl
    · rw [zipIdx_filter_map p keep _ k h, show keep - k = 0 by omega]; simp

theorem odsFilter_eq (skip : Option Bool) (keep : Nat) (data : List (List (PV O))) :
    ∃ p : List (PV O) → Bool, (∀ r, p r = true ↔ OdsKept skip r) ∧ odsFilter skip keep data = data.take keep ++ (data.drop keep).filter p := by
  cases skip with
  | none => exact ⟨fun _ => true, by simp [OdsKept], by simp [odsFilter]⟩
  | some b =>
    cases b with
    | true =>
      refine ⟨fun r => r.any fun v => !odsEmpty v, ?_, ?_⟩
      · intro r
        rw [List.any_eq_true]
        dsimp only [OdsKept]
        constructor
        · rintro ⟨v, hv, h⟩; exact ⟨v, hv, (odsEmpty_iff v).1 h⟩
        · rintro ⟨v, hv, h⟩; exact ⟨v, hv, (odsEmpty_iff v).2 h⟩
      · exact zipIdx_filter_keep (fun r : List (PV O) => r.any fun v => !odsEmpty v) keep data 0 (Nat.zero_le _)
    | false =>
      refine ⟨fun r => r.all fun v => !odsEmpty v, ?_, ?_⟩
      · intro r
        rw [List.all_eq_true]
        dsimp only [OdsKept]
        constructor
        · intro h v hv; exact (odsEmpty_iff v).1 (h v hv)
        · intro h v hv; exact (odsEmpty_iff v).2 (h v hv)
      · exact zipIdx_filter_keep (fun r : List (PV O) => r.all fun v => !odsEmpty v) keep data 0 (Nat.zero_le _)

theorem zipIdx_range (f : Nat → PyText) (n : Nat) : ((List.range n).map f).zipIdx = (List.range n).map fun i => (f i, i) := by
  apply List.ext_getElem
  · simp
  · intro i h1 h2; simp

theorem odsFields_eq (str_ : PV O → PyText) (o : SheetOpts) (header : List (PV O)) :
    odsFields str_ o header = nameLoop [] (odsWanted (odsHeaders str_ o.headers header) o.columns) := by
  have e : (if o.headers then (header.map (headerText str_)).zipIdx else (List.range header.length).map fun i => (95 :: natText (i + 1), i)) =
      (odsHeaders str_ o.headers header).zipIdx := by
    unfold odsHeaders
    rw [headerText_eq]
    split_ifs
    · rfl
    · exact (zipIdx_range (fun i => 95 :: natText (i + 1)) header.length).symm
  unfold odsFields
  dsimp only
  rw [e]
  cases o.columns <;> rfl

/-- the rows an ODS import takes: those after the header row that `skip_empty` keeps, the first `limit` of them -/
noncomputable def odsImported (o : SheetOpts) (sheet : List (List (PV O))) : List (List (PV O)) :=
  open Classical in
  ((sheet.drop (o.headerRow + if o.headers then 1 else 0)).filter fun r => decide (OdsKept o.skip r)).take o.limit.toNat

theorem odsImported_none (o : SheetOpts) (h : o.skip = none) (sheet : List (List (PV O))) :
    odsImported o sheet = (sheet.drop (o.headerRow + if o.headers then 1 else 0)).take o.limit.toNat := by
  unfold odsImported
  rw [List.filter_eq_self.2]
  intro r _
  rw [h]
  exact @decide_eq_true _ (Classical.propDecidable _) trivial

theorem odsRead_eq (str_ : PV O → PyText) (ps : Nat) (o : SheetOpts) (hstart : 0 ≤ o.start) (hlimit : 0 < o.limit)
    (sheet : List (List (PV O))) (header : List (PV O)) (hh : sheet[o.headerRow]? = some header) (hw : ∀ r ∈ sheet, r.length = header.length)
    (hrow : o.headers = false → ∃ r ∈ sheet.drop o.headerRow, OdsKept o.skip r) :
    odsRead str_ ps o sheet = .ok ((nameLoop [] (odsWanted (odsHeaders str_ o.headers header) o.columns)).map fun x =>
      (x.1, paginate ps ((odsImported o sheet).map fun r => r.getD x.2 .none))) := by
  obtain ⟨p, hp, hf⟩ := odsFilter_eq o.skip (o.headerRow + if o.headers then 1 else 0) sheet
  have hlen : o.headerRow < sheet.length := by
    by_contra hcon
    rw [List.getElem?_eq_none (by omega)] at hh; cases hh
  have hhead : ∃ header', (odsFilter o.skip (o.headerRow + if o.headers then 1 else 0) sheet)[o.headerRow]? = some header' ∧
      odsHeaders str_ o.headers header' = odsHeaders str_ o.headers header := by
    rw [hf]
    cases hb : o.headers with
    | true =>
      refine ⟨header, ?_, rfl⟩
      simp only [if_true]
      rw [List.getElem?_append_left (by simp; omega), List.getElem?_take, if_pos (by omega)]
      exact hh
    | false =>
      simp only [Bool.false_eq_true, if_false, Nat.add_zero]
      obtain ⟨r, hr, hk⟩ := hrow hb
      have hmem : r ∈ (sheet.drop o.headerRow).filter p := List.mem_filter.2 ⟨hr, (hp r).2 hk⟩
      obtain ⟨a, l, hal⟩ : ∃ a l, (sheet.drop o.headerRow).filter p = a :: l := by
        cases h : (sheet.drop o.headerRow).filter p with
        | nil => rw [h] at hmem; cases hmem
        | cons a l => exact ⟨a, l, rfl⟩
      refine ⟨a, ?_, ?_⟩
      · rw [hal, List.getElem?_append_right (by simp), List.length_take, show o.headerRow - min o.headerRow sheet.length = 0 by omega]; rfl
      · have ha : a ∈ sheet := by
          have : a ∈ (sheet.drop o.headerRow).filter p := by rw [hal]; exact List.mem_cons_self
          exact List.mem_of_mem_drop (List.mem_of_mem_filter this)
        unfold odsHeaders
        simp only [Bool.false_eq_true, if_false]
        rw [hw a ha]
  obtain ⟨header', h1, h2⟩ := hhead
  have hdrop : ((odsFilter o.skip (o.headerRow + if o.headers then 1 else 0) sheet).drop (o.headerRow + if o.headers then 1 else 0)).take o.limit.toNat =
      odsImported o sheet := by
    rw [hf, List.drop_append]
    unfold odsImported
    congr 1
    have hm : (o.headerRow + if o.headers = true then 1 else 0) ≤ sheet.length := by split_ifs <;> omega
    rw [List.drop_eq_nil_of_le (by simp), List.nil_append, List.length_take, Nat.min_eq_left hm, Nat.sub_self, List.drop_zero]
    apply List.filter_congr
    intro r _
    have := hp r
    by_cases hk : OdsKept o.skip r
    · simp [hk, this.2 hk]
    · have : p r = false := by
        cases hpr : p r with
        | false => rfl
        | true => exact absurd (this.1 hpr) hk
      simp [hk, this]
  unfold odsRead
  dsimp only
  rw [if_pos hstart, if_pos hlimit, h1]
  dsimp only
  rw [hdrop, odsFields_eq, h2]

/-- C90: an ODS import gives, for every wanted column in the order of the sheet, a column with a name of its own that holds the first
`limit` cells of the rows after the header row that `skip_empty` keeps.  Without headers there has to be such a row. -/
theorem C90_ods (str_ : PV O → PyText) (ps : Nat) (o : SheetOpts) (hstart : 0 ≤ o.start) (hlimit : 0 < o.limit)
    (sheet : List (List (PV O))) (header : List (PV O)) (hh : sheet[o.headerRow]? = some header) (hw : ∀ r ∈ sheet, r.length = header.length)
    (hrow : o.headers = false → ∃ r ∈ sheet.drop o.headerRow, OdsKept o.skip r) :
    ∃ fields, NamesOk (odsWanted (odsHeaders str_ o.headers header) o.columns) fields ∧
      odsRead str_ ps o sheet = .ok (fields.map fun x => (x.1, paginate ps ((odsImported o sheet).map fun r => r.getD x.2 .none))) :=
  ⟨_, nameLoop_ok _, odsRead_eq str_ ps o hstart hlimit sheet header hh hw hrow⟩

example : odsRead (fun _ => []) 2 { limit := 2, columns := some [txt "b", txt "zz"], skip := some true } demoSheet =
    .ok [(txt "b", [[.float (.fin 2), .bool true]])] := by decide +kernel

/-- C90: `start` has no effect: the rows it should skip are imported -/
theorem C90_start_ignored (str_ : PV O → PyText) (ps : Nat) (o : SheetOpts) (s : Int) (hs : 0 ≤ s) (ho : 0 ≤ o.start) (sheet : List (List (PV O))) :
    odsRead str_ ps { o with start := s } sheet = odsRead str_ ps o sheet := by
  unfold odsRead
  dsimp only
  rw [if_pos hs, if_pos ho]
  rfl

/-- the documented meaning of `start`: importing with `start=k` leaves out the first `k` rows -/
def C90_start_statement : Prop := ∀ (str_ : PV Unit → PyText) (ps : Nat), 0 < ps → ∀ (o : SheetOpts), 0 ≤ o.start → ∀ (sheet : List (List (PV Unit)))
  (t u : List (PyText × Pages (PV Unit))), odsRead str_ ps { o with start := 0 } sheet = .ok t → odsRead str_ ps o sheet = .ok u →
  u.map (fun c => (c.1, colIter c.2)) = t.map fun c => (c.1, (colIter c.2).drop o.start.toNat)

theorem C90_start_fails : ¬ C90_start_statement := by
  intro h
  have := h (fun _ => []) 5 (by decide) { start := 1 } (by decide) [[.str [97]], [.int 1], [.int 2]] [([97], [[.int 1, .int 2]])] [([97], [[.int 1, .int 2]])]
    (by rfl) (by rfl)
  exact absurd this (by decide)

/-- C90: a header row outside of the sheet raises IndexError (the Excel import gives an empty table, C89_no_header) -/
theorem C90_no_header (str_ : PV O → PyText) (ps : Nat) (o : SheetOpts) (hstart : 0 ≤ o.start) (hlimit : 0 < o.limit)
    (sheet : List (List (PV O))) (h : sheet.length ≤ o.headerRow) : odsRead str_ ps o sheet = .error .index := by
  obtain ⟨p, hp, hf⟩ := odsFilter_eq o.skip (o.headerRow + if o.headers then 1 else 0) sheet
  unfold odsRead
  dsimp only
  rw [if_pos hstart, if_pos hlimit, hf, List.take_of_length_le (by omega), List.drop_eq_nil_of_le (by omega), List.filter_nil, List.append_nil,
    List.getElem?_eq_none h]

/-- C90: without headers and without a row that `skip_empty` keeps from the header row on there is no table either: IndexError -/
theorem C90_no_rows (str_ : PV O → PyText) (ps : Nat) (o : SheetOpts) (hstart : 0 ≤ o.start) (hlimit : 0 < o.limit) (hh : o.headers = false)
    (sheet : List (List (PV O))) (h : ∀ r ∈ sheet.drop o.headerRow, ¬ OdsKept o.skip r) : odsRead str_ ps o sheet = .error .index := by
  obtain ⟨p, hp, hf⟩ := odsFilter_eq o.skip (o.headerRow + if o.headers then 1 else 0) sheet
  unfold odsRead
  dsimp only
  rw [if_pos hstart, if_pos hlimit, hf, hh]
  simp only [Bool.false_eq_true, if_false, Nat.add_zero]
  rw [List.filter_eq_nil_iff.2 (fun r hr hcon => h r hr ((hp r).1 hcon)), List.append_nil, List.getElem?_eq_none (by simp)]

example : odsRead (fun _ => []) 2 { headers := false, skip := some true } ([[.none], [.str []]] : List (List (PV Unit))) = .error .index := by decide +kernel

/-- the two readers give the same table for the same sheet and the same call -/
def C90_parity_statement : Prop := ∀ (str_ : PV Unit → PyText) (R : XlsRuntime Unit), XlsRuntimeOk R → ∀ (ps : Nat), 0 < ps → ∀ (o : SheetOpts)
  (sheet : List (List (PV Unit))), excelRead str_ R ps o sheet = odsRead str_ ps o sheet

theorem C90_parity_fails : ¬ C90_parity_statement := by
  intro h
  have := h (fun _ => []) exactXls exactXls_ok 5 (by decide) { headers := false } [[.int 1], [.int 2]]
  exact absurd this (by decide +kernel)

/-- a value without tabs and line breaks -/
def NoEscape : PV O → Prop
  | .str t => ∀ c ∈ t, c ≠ 9 ∧ c ≠ 10 ∧ c ≠ 13
  | _ => True

theorem stripEsc_id (v : PV O) (h : NoEscape v) : stripEsc v = v := by
  cases v with
  | str t =>
    dsimp only [stripEsc]
    rw [List.filter_eq_self.2]
    intro c hc
    have := h c hc
    simp [this.1, this.2.1, this.2.2]
  | _ => rfl

/-- C90, what holds: with headers, all columns, all rows and texts without tabs and line breaks both readers give the same table -/
theorem C90_parity_partial (str_ : PV O → PyText) (R : XlsRuntime O) (hR : XlsRuntimeOk R) (ps : Nat) (hps : 0 < ps) (o : SheetOpts)
    (hstart : o.start = 0) (hheaders : o.headers = true) (hcols : o.columns = none) (hskip : o.skip = none)
    (sheet : List (List (PV O))) (hlimit : 0 < o.limit) (hall : (sheet.length : Int) ≤ o.limit + o.headerRow + 1)
    (header : List (PV O)) (hh : sheet[o.headerRow]? = some header) (hw : ∀ r ∈ sheet, r.length = header.length)
    (hesc : ∀ r ∈ sheet, ∀ v ∈ r, NoEscape v) (hc : ∀ r ∈ sheet, ∀ v ∈ r, XlsCell R v) :
    excelRead str_ R ps o sheet = odsRead str_ ps o sheet := by
  have hcell : ∀ r ∈ sheet, ∀ i, i < header.length → sheetCell r i = r.getD i .none ∧ XlsCell R (sheetCell r i) := by
    intro r hr i hi
    have hl := hw r hr
    unfold sheetCell
    rw [List.getD_eq_getElem?_getD, List.getElem?_eq_getElem (by omega), Option.getD_some]
    have hm : r[i]'(by omega) ∈ r := List.getElem_mem _
    rw [stripEsc_id _ (hesc r hr _ hm)]
    exact ⟨rfl, hc r hr _ hm⟩
  have hheader : header ∈ sheet := List.mem_of_getElem? hh
  have hsame : excelHeaders str_ o.headers header = odsHeaders str_ o.headers header := by
    unfold excelHeaders odsHeaders
    rw [if_pos hheaders, if_pos hheaders]
    apply List.map_congr_left
    intro v hv
    rw [stripEsc_id _ (hesc _ hheader v hv)]
  have hlt := excelWanted_lt str_ o header (by rw [hcols]; simp)
  have h1 := excelRead_eq str_ R hR ps hps o (by omega) hlimit sheet header hh hw (by rw [hcols]; simp)
    (fun r hr x hx => (hcell r (List.mem_of_mem_drop (List.mem_of_mem_take hr)) x.2 (hlt x hx)).2)
  have h2 := odsRead_eq str_ ps o (by omega) hlimit sheet header hh hw (by rw [hheaders]; simp)
  have hlt' := positions_cells (· < header.length) _ _ (nameLoop_ok _) hlt
  rw [h1, h2]
  have hwant : odsWanted (odsHeaders str_ o.headers header) o.columns = excelWanted (excelHeaders str_ o.headers header) o.columns := by
    rw [hcols, hsame]; rfl
  rw [hwant]
  congr 1
  apply List.map_congr_left
  intro x hx
  have hrows : excelImported o (nameLoop [] (excelWanted (excelHeaders str_ o.headers header) o.columns)) sheet = odsImported o sheet := by
    rw [excelImported_none o hskip, odsImported_none o hskip, hstart, hheaders]
    simp only [if_true, Int.toNat_zero, Nat.add_zero]
    rw [List.take_of_length_le (by simp; omega), List.take_of_length_le (by simp; omega)]
  rw [hrows]
  congr 2
  apply List.map_congr_left
  intro r hr
  have hr' : r ∈ sheet := List.mem_of_mem_drop (List.mem_of_mem_filter (List.mem_of_mem_take hr))
  exact (hcell r hr' x.2 (hlt' x hx)).1

example : excelRead (fun _ => []) exactXls 2 {} [[.str [97]], [.int 1], [.none]] = odsRead (fun _ => []) 2 {} [[.str [97]], [.int 1], [.none]] := by
  decide +kernel

/-! ## C91: HTML files -/

theorem pyFind_last (sub t : PyText) (h : 1 < sub.length) : pyFind sub t (-1) = -1 := by
  unfold pyFind
  dsimp only
  rw [if_pos (by omega)]
  have : pyFindFrom sub t ((-1 + (t.length : Int)).toNat) = none := by
    unfold pyFindFrom
    rw [List.find?_eq_none]
    intro k hk hcon
    rw [Bool.and_eq_true, decide_eq_true_eq, List.isPrefixOf_iff_prefix] at hcon
    have := hcon.2.length_le
    rw [List.length_drop] at this
    omega
  rw [this]

theorem htmlLoop_end (reads : List PyText) (chunk : PyText) : htmlLoop chunk (-1) (-1) reads = .endOfFile := by
  induction reads generalizing chunk with
  | nil =>
    rw [htmlLoop, pyFind_last _ _ (by decide +kernel)]
    simp
  | cons new rest ih =>
    rw [htmlLoop, pyFind_last _ _ (by decide +kernel), pyFind_last _ _ (by decide +kernel)]
    simp only [true_or, if_true]
    split_ifs
    · rfl
    · exact ih _

/-- an HTML file with rows is imported -/
def C91_statement : Prop := ∀ (text : PyText), pyFind (txt "<tr>") text 0 ≠ -1 → pyFind (txt "</tr>") text 0 ≠ -1 → htmlLoop [] 0 0 [text] = .found

/-- C91: no row is ever found: whatever the file holds and however it is read, `from_html` reaches the end of the file and returns None -/
theorem C91_no_table (reads : List PyText) : htmlLoop [] 0 0 reads = .endOfFile := by
  have e1 : pyFind (txt "<tr>") [] 0 = -1 := by decide +kernel
  have e2 : pyFind (txt "</tr>") [] 0 = -1 := by decide +kernel
  cases reads with
  | nil => rw [htmlLoop, e1]; simp
  | cons new rest =>
    rw [htmlLoop, e1, e2]
    simp only [true_or, if_true]
    split_ifs
    · rfl
    · exact htmlLoop_end _ _

theorem C91_fails : ¬ C91_statement := by
  intro h
  have := h (txt "<tr><th>a</th></tr>") (by decide +kernel) (by decide +kernel)
  rw [C91_no_table] at this
  cases this

/-- the search itself finds rows: it is the position it starts from, kept at -1 after the first, empty, search -/
example : pyFind (txt "<tr>") (txt "<table><tr>") 0 = 7 := by decide +kernel
example : htmlLoop (txt "<tr><th>a</th></tr>") 0 0 [] = .found := by
  rw [htmlLoop]
  have e1 : pyFind (txt "<tr>") (txt "<tr><th>a</th></tr>") 0 = 0 := by decide +kernel
  have e2 : pyFind (txt "</tr>") (txt "<tr><th>a</th></tr>") 0 = 14 := by decide +kernel
  rw [e1, e2]
  rfl

end Tablite
