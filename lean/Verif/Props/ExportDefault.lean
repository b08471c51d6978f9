import Verif.Props.ExportExact
/-!
# C75 with the default settings of `Table.from_file`: exactly which tables come back
-/
namespace Tablite

/-- spec: a line cut at its commas -/
def commaCut : List Char → List (List Char)
  | [] => [[]]
  | c :: r => if c = ',' then [] :: commaCut r else ((c :: (commaCut r).headD []) :: (commaCut r).tail)

/-- spec: blanks at the start and white space at the end taken off -/
def trimText (f : List Char) : List Char := stripTrailing (f.dropWhile (· == ' '))

/-- spec: a text cut at its line feeds, without what is behind the last -/
def lineCut : List Char → List Char → List (List Char)
  | _, [] => []
  | cur, c :: r => if c = '\n' then cur :: lineCut [] r else lineCut (cur ++ [c]) r

theorem commaCut_ne (l : List Char) : commaCut l ≠ [] := by
  cases l with
  | nil => simp [commaCut]
  | cons c r => simp only [commaCut]; split <;> simp

theorem commaCut_cons (c : Char) (r : List Char) (h : c ≠ ',') : ∃ p ps, commaCut r = p :: ps ∧ commaCut (c :: r) = (c :: p) :: ps := by
  cases e : commaCut r with
  | nil => exact absurd e (commaCut_ne r)
  | cons p ps => exact ⟨p, ps, rfl, by simp [commaCut, h, e]⟩

/-- the default settings -/
abbrev plainDialect : Dialect := readDialect none none true

/-- one line without backslashes and line ends: it is cut at the commas -/
theorem line_run (l : List Char) (hl : ∀ c ∈ l, isCrnl c = false ∧ c ≠ '\\') :
    (∀ fs, (∀ p ∈ commaCut l, p.length ≤ fieldLimit) → ∀ st, st = .startRecord ∨ st = .startField →
      (l ++ ['\n']).foldlM (fun s c => processChar plainDialect s (some c)) (⟨st, [], fs, false⟩ : CsvSt) = .ok ⟨.eatCrnl, [], fs ++ (commaCut l).map trimText, false⟩) ∧
    (∀ fs acc p ps, commaCut l = p :: ps → acc.length + p.length ≤ fieldLimit → (∀ p ∈ ps, p.length ≤ fieldLimit) →
      (l ++ ['\n']).foldlM (fun s c => processChar plainDialect s (some c)) (⟨.inField, acc, fs, false⟩ : CsvSt) =
        .ok ⟨.eatCrnl, [], fs ++ stripTrailing (acc ++ p) :: ps.map trimText, false⟩) := by
  induction l with
  | nil =>
    constructor
    · intro fs _ st hst
      rcases hst with rfl | rfl <;>
        simp [processChar, procStart, isCrnl, saveField, savedField, readDialect, commaCut, trimText, bind, Except.bind, pure, Except.pure, stripTrailing]
    · intro fs acc p ps e _ _
      simp only [commaCut, List.cons.injEq] at e
      obtain ⟨rfl, rfl⟩ := e
      simp [processChar, procInField, isCrnl, saveField, savedField, readDialect, bind, Except.bind, pure, Except.pure]
  | cons c r ih =>
    obtain ⟨hc1, hc2⟩ := hl c (by simp)
    obtain ⟨ih1, ih2⟩ := ih fun c hc => hl c (by simp [hc])
    constructor
    · intro fs hp st hst
      rw [List.cons_append, List.foldlM_cons]
      by_cases hcc : c = ','
      · subst hcc
        have e : processChar plainDialect ⟨st, [], fs, false⟩ (some ',') = .ok ⟨.startField, [], fs ++ [[]], false⟩ := by
          rcases hst with rfl | rfl <;> simp [processChar, procStart, isCrnl, saveField, savedField, readDialect, bind, Except.bind, stripTrailing]
        simp only [e, bind, Except.bind]
        rw [ih1 (fs ++ [[]]) (fun p h => hp p (by simp [commaCut, h])) _ (.inr rfl)]
        simp [commaCut, trimText, stripTrailing]
      · obtain ⟨p, ps, e1, e2⟩ := commaCut_cons c r hcc
        by_cases hb : c = ' '
        · subst hb
          have e : processChar plainDialect ⟨st, [], fs, false⟩ (some ' ') = .ok ⟨.startField, [], fs, false⟩ := by
            rcases hst with rfl | rfl <;> simp [processChar, procStart, isCrnl, readDialect]
          simp only [e, bind, Except.bind]
          rw [ih1 fs ?_ _ (.inr rfl), e1, e2]
          · simp [trimText]
          · intro x hx
            rw [e1] at hx
            rw [e2] at hp
            rcases List.mem_cons.1 hx with rfl | hx
            · have := hp _ (List.mem_cons_self ..)
              simp only [List.length_cons] at this
              omega
            · exact hp x (List.mem_cons_of_mem _ hx)
        · rw [e2] at hp
          have hlen := hp _ (List.mem_cons_self ..)
          simp only [List.length_cons] at hlen
          have e : processChar plainDialect ⟨st, [], fs, false⟩ (some c) = .ok ⟨.inField, [c], fs, false⟩ := by
            rcases hst with rfl | rfl <;>
              simp [processChar, procStart, readDialect, hc1, hc2, hcc, hb, addChar_ok _ _ _ _ _ (show ([] : List Char).length < fieldLimit by decide), bind, Except.bind]
          simp only [e, bind, Except.bind]
          rw [ih2 fs [c] p ps e1 (by simp only [List.length_cons, List.length_nil]; omega) (fun x hx => hp x (List.mem_cons_of_mem _ hx)), e2]
          have : trimText (c :: p) = stripTrailing ([c] ++ p) := by
            simp [trimText, hb]
          simp [this]
    · intro fs acc p ps e hlen hps
      rw [List.cons_append, List.foldlM_cons]
      by_cases hcc : c = ','
      · subst hcc
        simp only [commaCut, if_true, List.cons.injEq] at e
        obtain ⟨rfl, rfl⟩ := e
        have e : processChar plainDialect ⟨.inField, acc, fs, false⟩ (some ',') = .ok ⟨.startField, [], fs ++ [stripTrailing acc], false⟩ := by
          simp [processChar, procInField, isCrnl, saveField, savedField, readDialect, bind, Except.bind]
        simp only [e, bind, Except.bind]
        rw [ih1 _ hps _ (.inr rfl)]
        simp
      · obtain ⟨p', ps', e1, e2⟩ := commaCut_cons c r hcc
        rw [e2, List.cons.injEq] at e
        obtain ⟨rfl, rfl⟩ := e
        simp only [List.length_cons] at hlen
        have e : processChar plainDialect ⟨.inField, acc, fs, false⟩ (some c) = .ok ⟨.inField, acc ++ [c], fs, false⟩ := by
          simp [processChar, procInField, readDialect, hc1, hc2, hcc, addChar_ok _ _ _ _ _ (show acc.length < fieldLimit by omega)]
        simp only [e, bind, Except.bind]
        rw [ih2 fs (acc ++ [c]) p' ps' e1 (by simp only [List.length_append, List.length_cons, List.length_nil]; omega) hps]
        simp

theorem lines_run (lines : List (List Char)) (h : ∀ l ∈ lines, (∀ c ∈ l, isCrnl c = false ∧ c ≠ '\\') ∧ ∀ p ∈ commaCut l, p.length ≤ fieldLimit) :
    parseLines plainDialect {} lines = .ok (lines.map fun l => (commaCut l).map trimText) := by
  induction lines with
  | nil => rfl
  | cons l lines ih =>
    obtain ⟨h1, h2⟩ := h l (by simp)
    rw [parseLines, show ({} : CsvSt) = ⟨.startRecord, [], [], false⟩ from rfl, (line_run l h1).1 [] h2 .startRecord (.inl rfl)]
    simp only [bind, Except.bind, processChar, procEat, if_true]
    rw [show (⟨.startRecord, [], [], false⟩ : CsvSt) = {} from rfl, ih fun l hl => h l (by simp [hl])]
    simp

/-- the lines of a text that ends in a line feed and has no CR -/
theorem readLines_lineCut (text : List Char) : ∀ cur : List Char, '\r' ∉ cur → '\r' ∉ text → (∀ h : text ≠ [], text.getLast h = '\n') → (text = [] → cur = []) →
    readLines cur text = lineCut cur text := by
  induction text with
  | nil => intro cur _ _ _ h; rw [h rfl]; rfl
  | cons c r ih =>
    intro cur hc ht hlast _
    simp only [List.mem_cons, not_or] at ht
    have hr : ∀ h : r ≠ [], r.getLast h = '\n' := by
      intro h
      rw [← hlast (by simp)]
      exact (List.getLast_cons h).symm
    simp only [readLines, lineCut]
    by_cases hn : c = '\n'
    · rw [if_pos hn, if_pos hn, ih [] (by simp) ht.2 hr (fun _ => rfl)]
      congr 1
      unfold dropCr
      rw [if_neg]
      intro h
      exact hc (List.mem_of_getLast? h)
    · rw [if_neg hn, if_neg hn]
      refine ih (cur ++ [c]) (by simp [hc, ht.1]) ht.2 hr ?_
      intro h
      subst h
      exact absurd (hlast (by simp)) (by simpa using hn)

theorem lineCut_append (a rest : List Char) : ∀ cur, '\n' ∉ a → lineCut cur (a ++ '\n' :: rest) = (cur ++ a) :: lineCut [] rest := by
  induction a with
  | nil => intro cur _; simp [lineCut]
  | cons c a ih =>
    intro cur h
    simp only [List.mem_cons, not_or] at h
    rw [List.cons_append, lineCut, if_neg (Ne.symm h.1), ih (cur ++ [c]) h.2]
    simp

theorem lineCut_length (text : List Char) : ∀ cur, (lineCut cur text).length = text.count '\n' := by
  induction text with
  | nil => intro cur; rfl
  | cons c r ih =>
    intro cur
    rw [lineCut]
    by_cases h : c = '\n'
    · rw [if_pos h, h]; simp [ih]
    · rw [if_neg h, ih]; simp [h]

theorem lineCut_chars (text : List Char) : ∀ cur, '\n' ∉ cur → ∀ l ∈ lineCut cur text, (∀ c ∈ l, c ∈ cur ∨ c ∈ text) ∧ '\n' ∉ l := by
  induction text with
  | nil => intro cur _ l hl; simp [lineCut] at hl
  | cons c r ih =>
    intro cur hcur l hl
    rw [lineCut] at hl
    by_cases h : c = '\n'
    · rw [if_pos h] at hl
      rcases List.mem_cons.1 hl with rfl | hl
      · exact ⟨fun c hc => .inl hc, hcur⟩
      · obtain ⟨h1, h2⟩ := ih [] (by simp) l hl
        refine ⟨fun c hc => ?_, h2⟩
        rcases h1 c hc with h | h
        · simp at h
        · exact .inr (List.mem_cons_of_mem _ h)
    · rw [if_neg h] at hl
      obtain ⟨h1, h2⟩ := ih (cur ++ [c]) (by simp [hcur, Ne.symm h]) l hl
      refine ⟨fun x hx => ?_, h2⟩
      rcases h1 x hx with h | h
      · rcases List.mem_append.1 h with h | h
        · exact .inl h
        · simp at h; subst h; exact .inr (by simp)
      · exact .inr (List.mem_cons_of_mem _ h)

/-! ## pieces of a written row -/

theorem commaCut_free (f rest : List Char) (h : ',' ∉ f) : commaCut (f ++ ',' :: rest) = f :: commaCut rest := by
  induction f with
  | nil => simp [commaCut]
  | cons c f ih =>
    simp only [List.mem_cons, not_or] at h
    rw [List.cons_append, commaCut, if_neg (Ne.symm h.1), ih h.2]
    simp

theorem commaCut_single (f : List Char) (h : ',' ∉ f) : commaCut f = [f] := by
  induction f with
  | nil => rfl
  | cons c f ih =>
    simp only [List.mem_cons, not_or] at h
    rw [commaCut, if_neg (Ne.symm h.1), ih h.2]
    simp

theorem commaCut_noComma (l : List Char) : ∀ p ∈ commaCut l, ',' ∉ p := by
  induction l with
  | nil => intro p hp; simp [commaCut] at hp; simp [hp]
  | cons c r ih =>
    intro p hp
    by_cases h : c = ','
    · simp only [commaCut, if_pos h] at hp
      rcases List.mem_cons.1 hp with rfl | hp
      · simp
      · exact ih p hp
    · obtain ⟨q, qs, e1, e2⟩ := commaCut_cons c r h
      rw [e1] at ih
      rw [e2] at hp
      rcases List.mem_cons.1 hp with rfl | hp
      · have := ih q (by simp)
        simp [Ne.symm h, this]
      · exact ih p (by simp [hp])

theorem trimText_sub (f : List Char) : ∀ c ∈ trimText f, c ∈ f := by
  intro c hc
  unfold trimText stripTrailing at hc
  have h1 := List.mem_reverse.1 hc
  have h2 := (List.dropWhile_sublist _).subset h1
  exact (List.dropWhile_sublist _).subset (List.mem_reverse.1 h2)

/-- nothing is taken off exactly if the text does not start with a blank or end in white space -/
theorem trimText_id (f : List Char) : trimText f = f ↔ f.head? ≠ some ' ' ∧ ∀ h : f ≠ [], nimSpace (f.getLast h) = false := by
  have htr : ∀ g : List Char, (stripTrailing g).length ≤ g.length := by
    intro g
    unfold stripTrailing
    rw [List.length_reverse]
    exact ((List.dropWhile_sublist _).length_le).trans (by simp)
  cases f with
  | nil => simp [trimText, stripTrailing]
  | cons c r =>
    by_cases hb : c = ' '
    · subst hb
      refine iff_of_false ?_ (by simp)
      intro h
      have h1 := congrArg List.length h
      have h2 := htr (r.dropWhile (· == ' '))
      have h3 := (List.dropWhile_sublist (p := (· == ' ')) (l := r)).length_le
      have h4 : trimText (' ' :: r) = stripTrailing (r.dropWhile (· == ' ')) := by simp [trimText]
      rw [h4] at h1
      simp only [List.length_cons] at h1
      omega
    · have h0 : trimText (c :: r) = stripTrailing (c :: r) := by simp [trimText, hb]
      rw [h0]
      rcases List.eq_nil_or_concat (c :: r) with h | ⟨a, x, h⟩
      · simp at h
      · rw [List.concat_eq_append] at h
        have hhead : (c :: r).head? ≠ some ' ' := by simpa using hb
        have hlast : ∀ h' : (c :: r) ≠ [], (c :: r).getLast h' = x := by
          intro h'; simp [h]
        by_cases hx : nimSpace x = true
        · refine iff_of_false ?_ ?_
          · intro e
            have h1 := congrArg List.length e
            rw [h] at h1
            unfold stripTrailing at h1
            rw [List.reverse_append, List.reverse_singleton, List.singleton_append, List.dropWhile_cons, if_pos hx, List.length_reverse] at h1
            have h3 := (List.dropWhile_sublist (p := nimSpace) (l := a.reverse)).length_le
            simp only [List.length_append, List.length_reverse, List.length_cons, List.length_nil] at h1 h3
            omega
          · rintro ⟨-, h2⟩
            have := h2 (by simp)
            rw [hlast] at this
            rw [this] at hx
            cases hx
        · refine iff_of_true ?_ ⟨hhead, fun h' => by rw [hlast]; simpa using hx⟩
          rw [h]
          unfold stripTrailing
          rw [List.reverse_append, List.reverse_singleton, List.singleton_append, List.dropWhile_cons, if_neg hx]
          simp

/-- spec: a text that comes back with the default settings -/
def DefaultKept (f : List Char) : Prop :=
  (∀ c ∈ f, c ≠ ',' ∧ c ≠ '"' ∧ c ≠ '\n') ∧ f.head? ≠ some ' ' ∧ ∀ h : f ≠ [], nimSpace (f.getLast h) = false

theorem needsQuotes_false (f : List Char) (hcr : '\r' ∉ f) : needsQuotes ',' f = false ↔ ∀ c ∈ f, c ≠ ',' ∧ c ≠ '"' ∧ c ≠ '\n' := by
  rw [needsQuotes, List.any_eq_false]
  constructor
  · intro h c hc
    have := h c hc
    simp only [Bool.or_eq_true, not_or, beq_iff_eq] at this
    exact ⟨this.1.1.1, this.1.1.2, this.1.2⟩
  · intro h c hc
    obtain ⟨h1, h2, h3⟩ := h c hc
    have h4 : c ≠ '\r' := by rintro rfl; exact hcr hc
    simp [h1, h2, h3, h4]

/-- the pieces of a row come back exactly if all its texts do -/
theorem row_pieces (q : List (List Char)) (r : List (List Char)) (hne : r ≠ []) (hq : q ≠ [[]]) (hcr : ∀ f ∈ r, '\r' ∉ f) (hnl : ∀ f ∈ r, '\n' ∉ f) :
    (∀ k, (h : k < r.length) → ((commaCut (fileRow ',' q r)).map trimText).getD k [] = r[k]) ↔ ∀ f ∈ r, DefaultKept f := by
  have key : ∀ (f : List Char) (tail : List (List Char)) (l : List Char), '\r' ∉ f → '\n' ∉ f → (l = [] ∨ ∃ m, l = ',' :: m) →
      ((commaCut (fileField ',' q f ++ l)).map trimText).getD 0 [] = f → needsQuotes ',' f = false := by
    intro f _ l hcr hnl hl h
    by_contra hn
    have hn : needsQuotes ',' f = true := by simpa using hn
    have hff : fileField ',' q f = pyQuoted f := by unfold fileField; simp [hn]
    rw [hff] at h
    by_cases hc : ',' ∈ f
    · cases e : commaCut (pyQuoted f ++ l) with
      | nil => exact absurd e (commaCut_ne _)
      | cons p ps =>
        rw [e] at h
        have h1 := commaCut_noComma (pyQuoted f ++ l) p (by rw [e]; simp)
        have h2 : trimText p = f := by simpa using h
        exact h1 (trimText_sub p _ (h2 ▸ hc))
    · have hqc : ',' ∉ pyQuoted f := by
        unfold pyQuoted
        simp only [List.cons_append, List.mem_cons, List.mem_append, List.mem_flatMap, List.not_mem_nil, or_false, not_or]
        refine ⟨by decide, ?_, by decide⟩
        rintro ⟨c, hcm, h⟩
        have : ',' = c := by split at h <;> simpa using h
        exact hc (this ▸ hcm)
      have hp : commaCut (pyQuoted f ++ l) = [pyQuoted f] ∨ ∃ ps, commaCut (pyQuoted f ++ l) = pyQuoted f :: ps := by
        rcases hl with rfl | ⟨m, rfl⟩
        · left; rw [List.append_nil]; exact commaCut_single _ hqc
        · right; exact ⟨_, commaCut_free _ m hqc⟩
      have ht : trimText (pyQuoted f) = f := by
        rcases hp with e | ⟨ps, e⟩ <;> (rw [e] at h; simpa using h)
      have hid : trimText (pyQuoted f) = pyQuoted f := by
        rw [trimText_id]
        refine ⟨by simp [pyQuoted], fun h' => ?_⟩
        have : (pyQuoted f).getLast h' = '"' := by simp [pyQuoted]
        rw [this]; decide
      rw [hid] at ht
      have h1 := congrArg List.length ht
      have h2 : ∀ g : List Char, g.length ≤ (g.flatMap (fun c => if c = '"' then [c, c] else [c])).length := by
        intro g
        induction g with
        | nil => simp
        | cons c g ih =>
          rw [List.flatMap_cons, List.length_append, List.length_cons]
          have : 1 ≤ (if c = '"' then [c, c] else [c]).length := by split <;> simp
          omega
      have h3 := h2 f
      simp only [pyQuoted, List.cons_append, List.length_cons, List.length_append, List.length_nil] at h1
      omega
  have hplain : ∀ f, needsQuotes ',' f = false → fileField ',' q f = f := by
    intro f h; unfold fileField; simp [h, hq]
  induction r with
  | nil => exact absurd rfl hne
  | cons f r ih =>
    have hcr' := hcr f (by simp)
    have hnl' := hnl f (by simp)
    cases r with
    | nil =>
      simp only [fileRow, List.mem_singleton, forall_eq, List.length_singleton]
      constructor
      · intro h
        have h0 := h 0 (by omega)
        simp only [List.getElem_cons_zero] at h0
        have hn := key f [] [] hcr' hnl' (.inl rfl) (by rw [List.append_nil]; exact h0)
        have hch := (needsQuotes_false f hcr').1 hn
        rw [hplain f hn, commaCut_single f (fun hc => (hch _ hc).1 rfl)] at h0
        exact ⟨hch, (trimText_id f).1 (by simpa using h0)⟩
      · rintro ⟨hch, hid⟩ k hk
        have hn := (needsQuotes_false f hcr').2 hch
        obtain rfl : k = 0 := by omega
        rw [hplain f hn, commaCut_single f (fun hc => (hch _ hc).1 rfl)]
        simp [(trimText_id f).2 hid]
    | cons g r =>
      have ih := ih (by simp) (fun f hf => hcr f (List.mem_cons_of_mem _ hf)) (fun f hf => hnl f (List.mem_cons_of_mem _ hf))
      simp only [fileRow]
      rw [List.forall_mem_cons]
      refine Iff.trans ?_ (and_congr Iff.rfl ih)
      constructor
      · intro h
        have h0 := h 0 (by simp)
        simp only [List.getElem_cons_zero] at h0
        have hn := key f [] _ hcr' hnl' (.inr ⟨_, rfl⟩) h0
        have hch := (needsQuotes_false f hcr').1 hn
        rw [hplain f hn, commaCut_free f _ (fun hc => (hch _ hc).1 rfl)] at h h0
        refine ⟨⟨hch, (trimText_id f).1 (by simpa using h0)⟩, ?_⟩
        intro k hk
        have := h (k + 1) (by simpa using hk)
        simpa using this
      · rintro ⟨⟨hch, hid⟩, h⟩ k hk
        have hn := (needsQuotes_false f hcr').2 hch
        rw [hplain f hn, commaCut_free f _ (fun hc => (hch _ hc).1 rfl)]
        cases k with
        | zero => simp [(trimText_id f).2 hid]
        | succ k =>
          have := h k (by simpa using hk)
          simpa using this


theorem row_kept (q : List (List Char)) (r : List (List Char)) (hne : r ≠ []) (hq : q ≠ [[]]) (hcr : ∀ f ∈ r, '\r' ∉ f) (h : ∀ f ∈ r, DefaultKept f) :
    (commaCut (fileRow ',' q r)).map trimText = r := by
  have hff : ∀ f ∈ r, fileField ',' q f = f := by
    intro f hf; unfold fileField; simp [(needsQuotes_false f (hcr f hf)).2 (h f hf).1, hq]
  have hc : ∀ f ∈ r, ',' ∉ f := fun f hf hc => ((h f hf).1 _ hc).1 rfl
  induction r with
  | nil => exact absurd rfl hne
  | cons f r ih =>
    have hid := (trimText_id f).2 (h f (by simp)).2
    cases r with
    | nil => rw [fileRow, hff f (by simp), commaCut_single f (hc f (by simp))]; simp [hid]
    | cons g r =>
      rw [fileRow, hff f (by simp), commaCut_free f _ (hc f (by simp)), List.map_cons, hid]
      congr 1
      exact ih (by simp) (fun f hf => hcr f (List.mem_cons_of_mem _ hf)) (fun f hf => h f (List.mem_cons_of_mem _ hf))
        (fun f hf => hff f (List.mem_cons_of_mem _ hf)) (fun f hf => hc f (List.mem_cons_of_mem _ hf))

/-- a row comes back exactly if its texts do and it is not a lone empty text -/
theorem row_back (r : List (List Char)) (hne : r ≠ []) (hcr : ∀ f ∈ r, '\r' ∉ f) (hnl : ∀ f ∈ r, '\n' ∉ f) :
    (∀ k, (h : k < r.length) → ((commaCut (fileRow ',' r r)).map trimText).getD k [] = r[k]) ↔ (∀ f ∈ r, DefaultKept f) ∧ r ≠ [[]] := by
  by_cases hr : r = [[]]
  · subst hr
    refine iff_of_false ?_ (fun h => h.2 rfl)
    intro h
    exact absurd (h 0 (by decide)) (by decide)
  · rw [row_pieces r r hne hr hcr hnl]
    exact ⟨fun h => ⟨h, hr⟩, fun h => h.1⟩

/-! ## no piece is too long -/

/-- no more than `n` characters between commas and line feeds, `k` of them seen -/
def shortRuns (n : Nat) : Nat → List Char → Prop
  | _, [] => True
  | k, c :: r => if c = ',' ∨ c = '\n' then shortRuns n 0 r else k + 1 ≤ n ∧ shortRuns n (k + 1) r

theorem shortRuns_append (n : Nat) (f rest : List Char) (c : Char) (hc : c = ',' ∨ c = '\n') (hrest : shortRuns n 0 rest) : ∀ k, k + f.length ≤ n →
    shortRuns n k (f ++ c :: rest) := by
  induction f with
  | nil => intro k _; simp only [List.nil_append, shortRuns, if_pos hc]; exact hrest
  | cons x f ih =>
    intro k hk
    simp only [List.length_cons] at hk
    rw [List.cons_append, shortRuns]
    split
    · exact ih 0 (by omega)
    · exact ⟨by omega, ih (k + 1) (by omega)⟩

theorem lineCut_head (text : List Char) : ∀ cur, lineCut cur text = match lineCut [] text with | [] => [] | l :: ls => (cur ++ l) :: ls := by
  induction text with
  | nil => intro cur; rfl
  | cons c r ih =>
    intro cur
    rw [lineCut, lineCut]
    by_cases h : c = '\n'
    · simp [h]
    · rw [if_neg h, if_neg h, ih (cur ++ [c]), ih ([] ++ [c])]
      cases lineCut [] r <;> simp

theorem shortRuns_pieces (n : Nat) (text : List Char) : ∀ k, k ≤ n → shortRuns n k text → ∀ l ls, lineCut [] text = l :: ls →
    (∀ p ps, commaCut l = p :: ps → k + p.length ≤ n ∧ ∀ p ∈ ps, p.length ≤ n) ∧ ∀ l ∈ ls, ∀ p ∈ commaCut l, p.length ≤ n := by
  induction text with
  | nil => intro k _ _ l ls h; simp [lineCut] at h
  | cons c r ih =>
    intro k hk hs l ls h
    have all : shortRuns n 0 r → ∀ l ∈ lineCut [] r, ∀ p ∈ commaCut l, p.length ≤ n := by
      intro hs0 l hl p hp
      cases e : lineCut [] r with
      | nil => rw [e] at hl; simp at hl
      | cons l' ls' =>
        obtain ⟨h1, h2⟩ := ih 0 (by omega) hs0 l' ls' e
        rw [e] at hl
        rcases List.mem_cons.1 hl with rfl | hl
        · cases e2 : commaCut l with
          | nil => exact absurd e2 (commaCut_ne _)
          | cons q qs =>
            obtain ⟨h3, h4⟩ := h1 q qs e2
            rw [e2] at hp
            rcases List.mem_cons.1 hp with rfl | hp
            · omega
            · exact h4 p hp
        · exact h2 l hl p hp
    rw [lineCut] at h
    by_cases hn : c = '\n'
    · rw [if_pos hn, List.cons.injEq] at h
      obtain ⟨rfl, rfl⟩ := h
      rw [shortRuns, if_pos (.inr hn)] at hs
      refine ⟨?_, all hs⟩
      intro p ps e
      simp only [commaCut, List.cons.injEq] at e
      obtain ⟨rfl, rfl⟩ := e
      exact ⟨by simpa using hk, by simp⟩
    · rw [if_neg hn, lineCut_head] at h
      cases e : lineCut [] r with
      | nil => rw [e] at h; simp at h
      | cons l' ls' =>
        rw [e] at h
        simp only [List.nil_append, List.singleton_append, List.cons.injEq] at h
        obtain ⟨rfl, rfl⟩ := h
        by_cases hc : c = ','
        · rw [shortRuns, if_pos (.inl hc)] at hs
          have ha := all hs
          rw [e] at ha
          refine ⟨?_, fun l hl => ha l (List.mem_cons_of_mem _ hl)⟩
          intro p ps e2
          simp only [commaCut, if_pos hc, List.cons.injEq] at e2
          obtain ⟨rfl, rfl⟩ := e2
          exact ⟨by simpa using hk, ha l' (by simp)⟩
        · rw [shortRuns, if_neg (by simp [hn, hc])] at hs
          obtain ⟨h1, h2⟩ := ih (k + 1) hs.1 hs.2 l' ls' e
          refine ⟨?_, h2⟩
          obtain ⟨p, ps, e1, e2⟩ := commaCut_cons c l' hc
          intro p' ps' e3
          rw [e2, List.cons.injEq] at e3
          obtain ⟨rfl, rfl⟩ := e3
          obtain ⟨h3, h4⟩ := h1 p ps e1
          exact ⟨by simp only [List.length_cons]; omega, h4⟩

theorem fileField_length (q : List (List Char)) (f : List Char) : (fileField ',' q f).length ≤ 2 * f.length + 2 := by
  have h2 : ∀ g : List Char, (g.flatMap (fun c => if c = '"' then [c, c] else [c])).length ≤ 2 * g.length := by
    intro g
    induction g with
    | nil => simp
    | cons c g ih =>
      rw [List.flatMap_cons, List.length_append, List.length_cons]
      have : (if c = '"' then [c, c] else [c]).length ≤ 2 := by split <;> simp
      omega
  unfold fileField
  split
  · have := h2 f
    simp only [pyQuoted, List.cons_append, List.length_cons, List.length_append, List.length_nil]
    omega
  · omega

theorem fileRow_short (q r : List (List Char)) (rest : List Char) (h : ∀ f ∈ r, f.length ≤ 65000) (hrest : shortRuns fieldLimit 0 rest) :
    shortRuns fieldLimit 0 (fileRow ',' q r ++ '\n' :: rest) := by
  induction r with
  | nil => exact shortRuns_append _ [] rest _ (.inr rfl) hrest 0 (by decide)
  | cons f r ih =>
    have hf : (fileField ',' q f).length ≤ fieldLimit := by
      have h1 := fileField_length q f
      have h2 := h f (by simp)
      have h3 : fieldLimit = 131072 := rfl
      omega
    cases r with
    | nil => rw [fileRow]; exact shortRuns_append _ _ rest _ (.inr rfl) hrest 0 (by omega)
    | cons g r =>
      rw [fileRow, List.append_assoc, List.cons_append]
      exact shortRuns_append _ _ _ _ (.inl rfl) (ih fun f hf => h f (List.mem_cons_of_mem _ hf)) 0 (by omega)

theorem fileRow_chars (q r : List (List Char)) (c : Char) (h1 : c ≠ '"') (h2 : c ≠ ',') : c ∈ fileRow ',' q r ↔ ∃ f ∈ r, c ∈ f := by
  have hf : ∀ f, c ∈ fileField ',' q f ↔ c ∈ f := by
    intro f
    unfold fileField
    split
    · unfold pyQuoted
      simp only [List.cons_append, List.mem_cons, List.mem_append, List.mem_flatMap, List.not_mem_nil, or_false, h1, false_or]
      constructor
      · rintro ⟨x, hx, h⟩
        have : c = x := by split at h <;> simpa using h
        exact this ▸ hx
      · intro h
        exact ⟨c, h, by split <;> simp⟩
    · rfl
  induction r with
  | nil => simp [fileRow]
  | cons f r ih =>
    cases r with
    | nil => simp [fileRow, hf]
    | cons g r =>
      rw [fileRow, List.mem_append, List.mem_cons, hf]
      refine (or_congr Iff.rfl (or_congr Iff.rfl ih)).trans ?_
      simp [h2]

theorem rows_lines (all : List (List (List Char))) (h : ∀ r ∈ all, ∀ f ∈ r, '\n' ∉ f) :
    lineCut [] (all.flatMap fun r => fileRow ',' r r ++ ['\n']) = all.map fun r => fileRow ',' r r := by
  induction all with
  | nil => rfl
  | cons r all ih =>
    rw [List.flatMap_cons, List.append_assoc, List.singleton_append, lineCut_append _ _ [] ?_, ih fun r hr => h r (by simp [hr])]
    · simp
    · rw [fileRow_chars r r _ (by decide) (by decide)]
      rintro ⟨f, hf, h'⟩
      exact h r (by simp) f hf h'

theorem rows_count (all : List (List (List Char))) : all.length ≤ (all.flatMap fun r => fileRow ',' r r ++ ['\n']).count '\n' ∧
    ∀ r ∈ all, ∀ f ∈ r, '\n' ∈ f → all.length < (all.flatMap fun r => fileRow ',' r r ++ ['\n']).count '\n' := by
  induction all with
  | nil => simp
  | cons r all ih =>
    have e : ((r :: all).flatMap fun r => fileRow ',' r r ++ ['\n']).count '\n' =
        (fileRow ',' r r).count '\n' + 1 + (all.flatMap fun r => fileRow ',' r r ++ ['\n']).count '\n' := by
      rw [List.flatMap_cons, List.count_append, List.count_append]
      simp
    rw [e, List.length_cons]
    refine ⟨by have := ih.1; omega, ?_⟩
    intro r' hr' f hf hn
    rcases List.mem_cons.1 hr' with rfl | hr'
    · have : 0 < (fileRow ',' r' r').count '\n' := List.count_pos_iff.2 ((fileRow_chars r' r' _ (by decide) (by decide)).2 ⟨f, hf, hn⟩)
      have := ih.1
      omega
    · have := ih.2 r' hr' f hf hn
      omega

/-- the records of what was written, with the default settings -/
theorem records_default (all : List (List (List Char))) (h : ∀ r ∈ all, ∀ f ∈ r, '\r' ∉ f ∧ '\\' ∉ f ∧ f.length ≤ 65000) :
    parseLines plainDialect {} (readLines [] (all.flatMap fun r => pyWriteRow ',' r)) =
      .ok ((lineCut [] (all.flatMap fun r => fileRow ',' r r ++ ['\n'])).map fun l => (commaCut l).map trimText) := by
  rw [readLines_rows ',' (by decide) all fun r hr f hf => (h r hr f hf).1]
  have hmem : ∀ c, c ≠ '"' → c ≠ ',' → c ≠ '\n' → (∀ r ∈ all, ∀ f ∈ r, c ∉ f) → c ∉ all.flatMap fun r => fileRow ',' r r ++ ['\n'] := by
    intro c h1 h2 h3 hall hc
    obtain ⟨r, hr, hc⟩ := List.mem_flatMap.1 hc
    rcases List.mem_append.1 hc with hc | hc
    · obtain ⟨f, hf, hc⟩ := (fileRow_chars r r c h1 h2).1 hc
      exact hall r hr f hf hc
    · exact h3 (by simpa using hc)
  have hcr := hmem '\r' (by decide) (by decide) (by decide) fun r hr f hf => (h r hr f hf).1
  have hbs := hmem '\\' (by decide) (by decide) (by decide) fun r hr f hf => (h r hr f hf).2.1
  have hlast : ∀ h' : (all.flatMap fun r => fileRow ',' r r ++ ['\n']) ≠ [], (all.flatMap fun r => fileRow ',' r r ++ ['\n']).getLast h' = '\n' := by
    rcases List.eq_nil_or_concat all with rfl | ⟨a, x, rfl⟩
    · intro h'; exact absurd rfl h'
    · intro h'
      simp [List.flatMap_append, ← List.append_assoc]
  rw [readLines_lineCut _ [] (by simp) hcr hlast (fun _ => rfl)]
  have hshort : shortRuns fieldLimit 0 (all.flatMap fun r => fileRow ',' r r ++ ['\n']) := by
    have hlen : ∀ r ∈ all, ∀ f ∈ r, f.length ≤ 65000 := fun r hr f hf => (h r hr f hf).2.2
    clear hcr hbs hlast hmem h
    induction all with
    | nil => trivial
    | cons r all ih =>
      rw [List.flatMap_cons, List.append_assoc, List.singleton_append]
      exact fileRow_short r r _ (hlen r (by simp)) (ih fun r hr => hlen r (by simp [hr]))
  apply lines_run
  intro l hl
  obtain ⟨h1, h2⟩ := lineCut_chars _ [] (by simp) l hl
  constructor
  · intro c hc
    have hct : c ∈ all.flatMap fun r => fileRow ',' r r ++ ['\n'] := by
      rcases h1 c hc with h | h
      · simp at h
      · exact h
    refine ⟨?_, ?_⟩
    · unfold isCrnl
      simp only [Bool.or_eq_false_iff, beq_eq_false_iff_ne]
      exact ⟨by rintro rfl; exact h2 hc, by rintro rfl; exact hcr hct⟩
    · rintro rfl; exact hbs hct
  · intro p hp
    cases e : lineCut [] (all.flatMap fun r => fileRow ',' r r ++ ['\n']) with
    | nil => rw [e] at hl; simp at hl
    | cons l' ls =>
      obtain ⟨h3, h4⟩ := shortRuns_pieces fieldLimit _ 0 (by omega) hshort l' ls e
      rw [e] at hl
      rcases List.mem_cons.1 hl with rfl | hl
      · cases e2 : commaCut l with
        | nil => exact absurd e2 (commaCut_ne _)
        | cons q qs =>
          obtain ⟨h5, h6⟩ := h3 q qs e2
          rw [e2] at hp
          rcases List.mem_cons.1 hp with rfl | hp
          · omega
          · exact h6 p hp
      · exact h4 l hl p hp

variable {α : Type}

/-- **C75**, exactly which tables come back with the default settings of `Table.from_file`: an exported table whose names come back is imported with the same
texts in all columns if and only if no text has a comma, a quote or a line feed, none starts with a blank or ends in white space, and, when there is one
column, none is empty.  Missing: texts with backslashes or CR, and texts longer than 65000 -/
theorem C75_default_exact (mk : List Char → Nat → List Char) (num : Nat → List Char) (txt : α → List Char) (nul : α)
    (ps : Nat) (hps : 0 < ps) (t : Tbl (List Char) α) (hne : t ≠ []) (hn : (t.map (·.1)).Nodup)
    (hnames : ∀ c ∈ t, DefaultKept c.1 ∧ c.1.length ≤ 65000 ∧ ∀ x ∈ c.1, x ≠ '\r' ∧ x ≠ '\\' ∧ x ≠ '\t') (hone : t.map (·.1) ≠ [[]])
    (hvals : ∀ c ∈ t, ∀ i < tblLen t, let f := txt ((colIter c.2).getD i nul); f.length ≤ 65000 ∧ ∀ x ∈ f, x ≠ '\r' ∧ x ≠ '\\') :
    ∃ text, textWriter txt nul ',' t = .ok text ∧
      (ComesBack txt nul t (fromFile mk num none none true ps text) ↔
        (∀ c ∈ t, ∀ i < tblLen t, DefaultKept (txt ((colIter c.2).getD i nul))) ∧
        (t.length = 1 → ∀ c ∈ t, ∀ i < tblLen t, txt ((colIter c.2).getD i nul) ≠ [])) := by
  let rows := (List.range (tblLen t)).map fun i => t.map fun c => txt ((colIter c.2).getD i nul)
  let all : List (List (List Char)) := t.map (·.1) :: rows
  have htext : textWriter txt nul ',' t = .ok (all.flatMap fun r => pyWriteRow ',' r) := by
    rw [textWriter, C15_rows nul t]
    simp [bind, Except.bind, all, rows, List.flatMap_map, Function.comp_def]
  refine ⟨_, htext, ?_⟩
  have hall : ∀ r ∈ all, r ≠ [] ∧ ∀ f ∈ r, '\r' ∉ f ∧ '\\' ∉ f ∧ f.length ≤ 65000 := by
    intro r hr
    rcases List.mem_cons.1 hr with rfl | hr
    · refine ⟨by simpa using hne, ?_⟩
      intro f hf
      obtain ⟨c, hc, rfl⟩ := List.mem_map.1 hf
      obtain ⟨-, h1, h2⟩ := hnames c hc
      exact ⟨fun h => (h2 _ h).1 rfl, fun h => (h2 _ h).2.1 rfl, h1⟩
    · obtain ⟨i, hi, rfl⟩ := List.mem_map.1 hr
      refine ⟨by simpa using hne, ?_⟩
      intro f hf
      obtain ⟨c, hc, rfl⟩ := List.mem_map.1 hf
      obtain ⟨h1, h2⟩ := hvals c hc i (List.mem_range.1 hi)
      exact ⟨fun h => (h2 _ h).1 rfl, fun h => (h2 _ h).2 rfl, h1⟩
  have hparse := records_default all fun r hr => (hall r hr).2
  unfold fromFile
  by_cases hnl : ∀ r ∈ all, ∀ f ∈ r, '\n' ∉ f
  · rw [rows_lines all hnl, List.map_map] at hparse
    let back : List (List (List Char)) := all.map fun r => (commaCut (fileRow ',' r r)).map trimText
    have hparse : parseLines plainDialect {} (readLines [] (all.flatMap fun r => pyWriteRow ',' r)) = .ok back := hparse
    have hhead : back.getD 0 [] = t.map (·.1) := by
      show (commaCut (fileRow ',' (t.map (·.1)) (t.map (·.1)))).map trimText = _
      refine row_kept _ _ (by simpa using hne) hone (fun f hf => ((hall _ (List.mem_cons_self ..)).2 f hf).1) ?_
      intro f hf
      obtain ⟨c, hc, rfl⟩ := List.mem_map.1 hf
      exact (hnames c hc).1
    have hstrip : (t.map (·.1)).map stripEscape = t.map (·.1) := by
      refine (List.map_congr_left (g := id) ?_).trans (List.map_id _)
      intro f hf
      obtain ⟨c, hc, rfl⟩ := List.mem_map.1 hf
      refine stripEscape_plain _ ?_
      intro x hx
      obtain ⟨h1, -, h2⟩ := hnames c hc
      obtain ⟨h3, h4, h5⟩ := h2 x hx
      refine ⟨?_, h5, h4⟩
      unfold isCrnl
      simp [h3, (h1.1 x hx).2.2]
    have hfirst : (back.getD 0 []).map stripEscape = t.map (·.1) := by rw [hhead, hstrip]
    have hfn : fieldNames mk num true (t.map (·.1)) = t.map (·.1) := by
      rw [fieldNames, if_pos rfl, uniqueNames_nodup mk _ hn]
    obtain ⟨table, h1, h2, h3, h4⟩ := C38_import mk num plainDialect {} ps hps _ back hparse (by simp [back, all]) (by intro c hc; exact hc)
    simp only [hfirst, hfn, Option.getD_none] at h2 h3 h4
    rw [uniqueNames_nodup mk _ hn] at h2
    have hreq : requestedRows {} back = rows.map fun r => (commaCut (fileRow ',' r r)).map trimText := by
      simp [requestedRows, back, all, checkSkip]
    have hcol : ∀ k col, table[k]? = some col → k < t.length →
        col.2.flatten = (List.range (tblLen t)).map fun i =>
          ((commaCut (fileRow ',' (t.map fun c => txt ((colIter c.2).getD i nul)) (t.map fun c => txt ((colIter c.2).getD i nul)))).map trimText).getD k [] := by
      intro k col hk hkl
      obtain ⟨h5, -⟩ := h4 k (by simpa using hkl) col hk
      rw [h5]
      have hidx : (t.map (·.1)).idxOf ((t.map (·.1)).getD k []) = k := by
        have hk' : k < (t.map (·.1)).length := by simpa using hkl
        rw [List.getD_eq_getElem?_getD, List.getElem?_eq_getElem hk', Option.getD_some]
        exact hn.idxOf_getElem k hk'
      rw [hidx, hreq]
      simp only [rows, List.map_map]
      rfl
    have hrow : ∀ i < tblLen t, let r := t.map fun c => txt ((colIter c.2).getD i nul)
        (∀ k, (h : k < r.length) → ((commaCut (fileRow ',' r r)).map trimText).getD k [] = r[k]) ↔ (∀ f ∈ r, DefaultKept f) ∧ r ≠ [[]] := by
      intro i hi r
      have hr : r ∈ all := List.mem_cons_of_mem _ (List.mem_map.2 ⟨i, List.mem_range.2 hi, rfl⟩)
      exact row_back r (hall r hr).1 (fun f hf => ((hall r hr).2 f hf).1) (hnl r hr)
    have hlone : ∀ i < tblLen t, (t.map fun c => txt ((colIter c.2).getD i nul)) ≠ [[]] ↔ (t.length = 1 → ∀ c ∈ t, txt ((colIter c.2).getD i nul) ≠ []) := by
      intro i hi
      cases t with
      | nil => exact absurd rfl hne
      | cons c t =>
        cases t with
        | nil => simp
        | cons c' t => simp
    have hlen : table.length = t.length := by simpa using congrArg List.length h2
    have goal : ComesBack txt nul t (.ok table) ↔ ∀ i < tblLen t, (∀ f ∈ t.map (fun c => txt ((colIter c.2).getD i nul)), DefaultKept f) ∧
        (t.map fun c => txt ((colIter c.2).getD i nul)) ≠ [[]] := by
      constructor
      · rintro ⟨table', e', -, hc'⟩ i hi
        cases e'
        refine (hrow i hi).1 ?_
        intro k hk
        simp only [List.length_map] at hk
        have a := hc' k _ t[k] (List.getElem?_eq_getElem (by omega)) (List.getElem?_eq_getElem hk)
        rw [hcol k _ (List.getElem?_eq_getElem (by omega)) hk] at a
        have := List.map_inj_left.1 a i (List.mem_range.2 hi)
        simpa using this
      · intro H
        refine ⟨table, rfl, h2, ?_⟩
        intro k col c hk hc
        have hkl : k < t.length := (List.getElem?_eq_some_iff.1 hc).1
        rw [hcol k col hk hkl]
        apply List.map_congr_left
        intro i hi
        rw [(hrow i (List.mem_range.1 hi)).2 (H i (List.mem_range.1 hi)) k (by simpa using hkl)]
        simp [(List.getElem?_eq_some_iff.1 hc).2]
    rw [h1, goal]
    constructor
    · intro H
      refine ⟨fun c hc i hi => (H i hi).1 _ (List.mem_map.2 ⟨c, hc, rfl⟩), fun ho c hc i hi => ((hlone i hi).1 (H i hi).2) ho c hc⟩
    · rintro ⟨H1, H2⟩ i hi
      refine ⟨?_, (hlone i hi).2 fun ho c hc => H2 ho c hc i hi⟩
      intro f hf
      obtain ⟨c, hc, rfl⟩ := List.mem_map.1 hf
      exact H1 c hc i hi
  · have hnl' : ∃ r ∈ all, ∃ f ∈ r, '\n' ∈ f := by
      by_contra hcon
      exact hnl fun r hr f hf hx => hcon ⟨r, hr, f, hf, hx⟩
    obtain ⟨r, hr, f, hf, hx⟩ := hnl'
    refine iff_of_false ?_ ?_
    · rintro ⟨table, e, hnm, hc⟩
      have hcount := (rows_count all).2 r hr f hf hx
      have hlc := lineCut_length (all.flatMap fun r => fileRow ',' r r ++ ['\n']) []
      have hal : all.length = tblLen t + 1 := by simp [all, rows]
      obtain ⟨table', h1, h2, h3, h4⟩ := C38_import mk num plainDialect {} ps hps _ _ hparse
        (by show 0 < _; rw [List.length_map, hlc]; omega) (by intro c hc; exact hc)
      rw [h1] at e
      cases e
      have hlen : table.length = t.length := by simpa using congrArg List.length hnm
      have htl : 0 < t.length := List.length_pos_of_ne_nil hne
      obtain ⟨h5, -⟩ := h4 0 (by rw [← h3]; omega) _ (List.getElem?_eq_getElem (by omega))
      rw [hc 0 _ t[0] (List.getElem?_eq_getElem (by omega)) (List.getElem?_eq_getElem htl)] at h5
      have h6 := congrArg List.length h5
      simp only [List.length_map, List.length_range, requestedRows, checkSkip] at h6
      simp [hlc] at h6
      omega
    · rintro ⟨H, -⟩
      rcases List.mem_cons.1 hr with rfl | hr
      · obtain ⟨c, hc, rfl⟩ := List.mem_map.1 hf
        exact ((hnames c hc).1.1 _ hx).2.2 rfl
      · obtain ⟨i, hi, rfl⟩ := List.mem_map.1 hr
        obtain ⟨c, hc, rfl⟩ := List.mem_map.1 hf
        exact ((H c hc i (List.mem_range.1 hi)).1 _ hx).2.2 rfl

/-- a table that comes back, with blanks and tabs inside the texts, and one that does not -/
example : exportImport ',' none none true [(['x'], [[['a', ' ', 'b'], ['c', '\t', 'd']]]), (['y'], [[[], ['e']]])] =
      .ok [(['x'], [['a', ' ', 'b'], ['c', '\t', 'd']]), (['y'], [[], ['e']])] ∧
    exportImport ',' none none true [(['x'], [[['a', ',', 'b']]]), (['y'], [[['c']]])] = .ok [(['x'], [['"', 'a']]), (['y'], [['b', '"']])] := by
  decide +kernel

end Tablite
