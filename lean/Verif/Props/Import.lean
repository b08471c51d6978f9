import Mathlib.Data.List.Sort
import Verif.Model.Import
import Verif.Props.Csv
import Verif.Props.TableOps
/-!
# C38: text import reads exactly the requested rows
-/

namespace Tablite

/-! ## records begin with a clean state -/

/-- between records nothing is left over -/
def CsvClean (s : CsvSt) : Prop := s.state = .eatCrnl ∨ s.state = .startRecord → s.field = [] ∧ s.numeric = false

theorem saveField_clean (d : Dialect) (s s' : CsvSt) (h : saveField d s = .ok s') : s'.field = [] ∧ s'.numeric = false ∧ s'.state = s.state := by
  unfold saveField at h
  by_cases hn : s.numeric = true
  · rw [if_pos hn] at h; simp at h
  · rw [if_neg hn] at h
    cases h
    exact ⟨rfl, by simpa using hn, rfl⟩

theorem addChar_state (s s' : CsvSt) (c : Char) (h : addChar s c = .ok s') : s'.state = s.state := by
  unfold addChar at h
  by_cases hl : s.field.length ≥ fieldLimit
  · rw [if_pos hl] at h; simp at h
  · rw [if_neg hl] at h; simp at h; subst h; rfl

theorem bind_ok {ε α β : Type} {x : Except ε α} {f : α → Except ε β} {b : β} (h : (x >>= f) = .ok b) : ∃ a, x = .ok a ∧ f a = .ok b := by
  cases x with
  | error e => cases h
  | ok a => exact ⟨a, rfl, h⟩

theorem save_then (d : Dialect) (s s' : CsvSt) (st : CsvState) (h : (do .ok { (← saveField d s) with state := st } : Except Err CsvSt) = .ok s') :
    s'.state = st ∧ s'.field = [] ∧ s'.numeric = false := by
  obtain ⟨a, ha, h⟩ := bind_ok h
  obtain ⟨h1, h2, _⟩ := saveField_clean d s a ha
  cases h
  exact ⟨rfl, h1, h2⟩

theorem add_then (s s' : CsvSt) (c : Char) (st : CsvState) (h : (do .ok { (← addChar s c) with state := st } : Except Err CsvSt) = .ok s') : s'.state = st := by
  obtain ⟨a, _, h⟩ := bind_ok h
  cases h
  rfl

theorem clean_of_state (s : CsvSt) (h1 : s.state ≠ .eatCrnl) (h2 : s.state ≠ .startRecord) : CsvClean s := by
  intro h
  rcases h with h | h
  · exact absurd h h1
  · exact absurd h h2

theorem clean_step (d : Dialect) (s s' : CsvSt) (ch : Option Char) (hs : CsvClean s) (h : processChar d s ch = .ok s') : CsvClean s' := by
  have hstart : procStart d s ch = .ok s' → CsvClean s' := by
    intro h
    unfold procStart at h
    cases ch with
    | none => simp at h; subst h; exact hs
    | some c =>
      dsimp only at h
      split at h
      · obtain ⟨_, h2, h3⟩ := save_then d s s' _ h
        exact fun _ => ⟨h2, h3⟩
      · split at h
        · cases h; exact clean_of_state _ (by simp) (by simp)
        · split at h
          · cases h; exact clean_of_state _ (by simp) (by simp)
          · split at h
            · cases h; exact clean_of_state _ (by simp) (by simp)
            · split at h
              · obtain ⟨h1, h2, h3⟩ := save_then d s s' _ h
                exact fun _ => ⟨h2, h3⟩
              · have := add_then _ s' _ _ h
                exact clean_of_state _ (by rw [this]; decide) (by rw [this]; decide)
  have hin : s.state = .inField ∨ s.state = .afterEscapedCrnl → procInField d s ch = .ok s' → CsvClean s' := by
    intro hst h
    unfold procInField at h
    cases ch with
    | none =>
      dsimp only at h
      split at h
      · cases h; exact hs
      · obtain ⟨h1, h2, h3⟩ := save_then d s s' _ h
        exact fun _ => ⟨h2, h3⟩
    | some c =>
      dsimp only at h
      split at h
      · obtain ⟨h1, h2, h3⟩ := save_then d s s' _ h
        exact fun _ => ⟨h2, h3⟩
      · split at h
        · cases h; exact clean_of_state _ (by simp) (by simp)
        · split at h
          · obtain ⟨h1, h2, h3⟩ := save_then d s s' _ h
            exact fun _ => ⟨h2, h3⟩
          · have := addChar_state s s' c h
            rcases hst with hst | hst <;> exact clean_of_state _ (by rw [this, hst]; decide) (by rw [this, hst]; decide)
  unfold processChar at h
  split at h
  · exact hstart h
  · exact hstart h
  · -- escaped
    unfold procEscaped at h
    obtain ⟨a, _, h⟩ := bind_ok h
    have := add_then _ s' _ _ h
    exact clean_of_state _ (by rw [this]; decide) (by rw [this]; decide)
  · next e => exact hin (Or.inl e) h
  · next e => exact hin (Or.inr e) h
  · next e =>
    unfold procQuoted at h
    cases ch with
    | none => cases h; exact hs
    | some c =>
      dsimp only at h
      split at h
      · cases h; exact clean_of_state _ (by simp) (by simp)
      · split at h
        · cases h
          cases d.doublequote <;> exact clean_of_state _ (by simp) (by simp)
        · have := addChar_state s s' c h
          exact clean_of_state _ (by rw [this, e]; decide) (by rw [this, e]; decide)
  · unfold procEscapeQuoted at h
    have := add_then _ s' _ _ h
    exact clean_of_state _ (by rw [this]; decide) (by rw [this]; decide)
  · unfold procQuoteQuoted at h
    dsimp only at h
    split at h
    · have := add_then _ s' _ _ h
      exact clean_of_state _ (by rw [this]; decide) (by rw [this]; decide)
    · split at h
      · obtain ⟨h1, h2, h3⟩ := save_then d s s' _ h
        exact fun _ => ⟨h2, h3⟩
      · split at h
        · obtain ⟨h1, h2, h3⟩ := save_then d s s' _ h
          exact fun _ => ⟨h2, h3⟩
        · split at h
          · have := add_then _ s' _ _ h
            exact clean_of_state _ (by rw [this]; decide) (by rw [this]; decide)
          · cases h
  · next e =>
    unfold procEat at h
    cases ch with
    | none => cases h; exact fun _ => hs (Or.inl e)
    | some c =>
      dsimp only at h
      split at h
      · cases h; exact hs
      · cases h

theorem fold_inv {σ : Type} (P : σ → Prop) (f : σ → Char → Except Err σ) (hf : ∀ s s' c, P s → f s c = .ok s' → P s') :
    ∀ (l : List Char) (s s' : σ), P s → l.foldlM f s = .ok s' → P s' := by
  intro l
  induction l with
  | nil => intro s s' hs h; cases h; exact hs
  | cons c l ih =>
    intro s s' hs h
    rw [List.foldlM_cons] at h
    obtain ⟨a, ha, h⟩ := bind_ok h
    exact ih a s' (hf s a c hs ha) h

theorem clean_line (d : Dialect) (s s' : CsvSt) (line : List Char) (hs : CsvClean s) (h : feedLine d s line = .ok s') : CsvClean s' := by
  unfold feedLine at h
  obtain ⟨a, ha, h⟩ := bind_ok h
  exact clean_step d a s' none (fold_inv CsvClean _ (fun s s' c hs h => clean_step d s s' (some c) hs h) _ s a hs ha) h

/-- after a record the parser is as at the beginning -/
theorem clean_reset (s : CsvSt) (hs : CsvClean s) (h : s.state = .startRecord) : ({ s with fields := [] } : CsvSt) = {} := by
  obtain ⟨h1, h2⟩ := hs (Or.inr h)
  cases s
  simp_all

theorem parseLines_cons (d : Dialect) (s : CsvSt) (line : List Char) (rest : List (List Char)) :
    parseLines d s (line :: rest) = (do
      let s ← feedLine d s line
      if s.state = .startRecord then do
        let more ← parseLines d { s with fields := [] } rest
        .ok (s.fields :: more)
      else parseLines d s rest) := by
  simp only [parseLines, feedLine, bind_assoc]

/-- the recorded positions are positions of the records: parsing from there gives the remaining records -/
theorem offsets_restart (d : Dialect) (all : List (List Char)) : ∀ (lines : List (List Char)) (s : CsvSt) (n : Nat) (recs : List (List (List Char))),
    CsvClean s → lines = all.drop n → parseLines d s lines = .ok recs →
    ∃ offs, recordOffsets d s n lines = .ok offs ∧ offs.length = recs.length ∧
      ∀ i (hi : i < offs.length), parseLines d {} (all.drop offs[i]) = .ok (recs.drop (i + 1)) := by
  intro lines
  induction lines with
  | nil =>
    intro s n recs _ _ h
    cases h
    exact ⟨[], rfl, rfl, fun i hi => absurd hi (by simp)⟩
  | cons line rest ih =>
    intro s n recs hs hl h
    rw [parseLines_cons] at h
    obtain ⟨s1, h1, h⟩ := bind_ok h
    have hc1 := clean_line d s s1 line hs h1
    have hrest : rest = all.drop (n + 1) := by
      have := congrArg List.tail hl
      simpa [List.tail_drop] using this
    by_cases hst : s1.state = .startRecord
    · rw [if_pos hst] at h
      obtain ⟨more, hm, h⟩ := bind_ok h
      cases h
      have hreset := clean_reset s1 hc1 hst
      obtain ⟨offs, ho, hlen, hat⟩ := ih { s1 with fields := [] } (n + 1) more (by rw [hreset]; intro _; exact ⟨rfl, rfl⟩) hrest hm
      refine ⟨(n + 1) :: offs, ?_, by simp [hlen], ?_⟩
      · simp only [recordOffsets, h1, bind, Except.bind, if_pos hst, ho]
      · intro i hi
        cases i with
        | zero =>
          simp only [List.getElem_cons_zero, List.drop_succ_cons, List.drop_zero]
          rw [← hrest, ← hreset]
          exact hm
        | succ i =>
          simp only [List.getElem_cons_succ, List.drop_succ_cons]
          exact hat i (by simpa using hi)
    · rw [if_neg hst] at h
      obtain ⟨offs, ho, hlen, hat⟩ := ih s1 (n + 1) recs hc1 hrest h
      exact ⟨offs, by simp only [recordOffsets, h1, bind, Except.bind, if_neg hst, ho], hlen, hat⟩

/-! ## without quoting every line is a record -/

/-- the states that occur without quoting -/
def NoQuoteState (s : CsvSt) : Prop :=
  s.state = .startRecord ∨ s.state = .startField ∨ s.state = .escapedChar ∨ s.state = .inField ∨ s.state = .eatCrnl

theorem noQuote_step (d : Dialect) (hd : d.quoting = .none) (s s' : CsvSt) (ch : Option Char) (hs : NoQuoteState s) (h : processChar d s ch = .ok s') :
    NoQuoteState s' ∧ (ch = some '\n' → s'.state = .inField ∨ s'.state = .eatCrnl) := by
  have hq : (d.quoting != .none) = false := by simp [hd]
  unfold processChar at h
  have hstart : procStart d s ch = .ok s' → (s.state = .startRecord ∨ s.state = .startField) →
      NoQuoteState s' ∧ (ch = some '\n' → s'.state = .inField ∨ s'.state = .eatCrnl) := by
    intro h hst
    unfold procStart at h
    cases ch with
    | none => cases h; exact ⟨hs, fun h => by cases h⟩
    | some c =>
      dsimp only at h
      by_cases hc : isCrnl c = true
      · rw [if_pos hc] at h
        obtain ⟨h1, _, _⟩ := save_then d s s' _ h
        exact ⟨by simp [NoQuoteState, h1], fun _ => Or.inr h1⟩
      · rw [if_neg hc] at h
        have hn : some c = some '\n' → s'.state = .inField ∨ s'.state = .eatCrnl := by
          intro e
          cases e
          exact absurd rfl hc
        refine ⟨?_, hn⟩
        rw [if_neg (by simp [hq])] at h
        split at h
        · cases h; simp [NoQuoteState]
        · split at h
          · cases h; simp [NoQuoteState]
          · split at h
            · obtain ⟨h1, _, _⟩ := save_then d s s' _ h
              simp [NoQuoteState, h1]
            · have := add_then _ s' _ _ h
              simp [NoQuoteState, this]
  rcases hs with e | e | e | e | e
  · rw [e] at h; exact hstart h (Or.inl e)
  · rw [e] at h; exact hstart h (Or.inr e)
  · rw [e] at h
    unfold procEscaped at h
    obtain ⟨a, _, h⟩ := bind_ok h
    have := add_then _ s' _ _ h
    exact ⟨by simp [NoQuoteState, this], fun _ => Or.inl this⟩
  · rw [e] at h
    unfold procInField at h
    cases ch with
    | none =>
      dsimp only at h
      rw [if_neg (by rw [e]; decide)] at h
      obtain ⟨h1, _, _⟩ := save_then d s s' _ h
      exact ⟨by simp [NoQuoteState, h1], fun h => by cases h⟩
    | some c =>
      dsimp only at h
      by_cases hc : isCrnl c = true
      · rw [if_pos hc] at h
        obtain ⟨h1, _, _⟩ := save_then d s s' _ h
        exact ⟨by simp [NoQuoteState, h1], fun _ => Or.inr h1⟩
      · rw [if_neg hc] at h
        refine ⟨?_, fun e => by cases e; exact absurd rfl hc⟩
        split at h
        · cases h; simp [NoQuoteState]
        · split at h
          · obtain ⟨h1, _, _⟩ := save_then d s s' _ h
            simp [NoQuoteState, h1]
          · have := addChar_state s s' c h
            simp [NoQuoteState, this, e]
  · rw [e] at h
    unfold procEat at h
    cases ch with
    | none => cases h; exact ⟨by simp [NoQuoteState], fun h => by cases h⟩
    | some c =>
      dsimp only at h
      split at h
      · cases h; exact ⟨by simp [NoQuoteState, e], fun _ => Or.inr e⟩
      · cases h

theorem noQuote_line (d : Dialect) (hd : d.quoting = .none) (s s' : CsvSt) (line : List Char) (hs : NoQuoteState s) (h : feedLine d s line = .ok s') :
    s'.state = .startRecord := by
  unfold feedLine at h
  rw [List.foldlM_append] at h
  obtain ⟨a, ha, h⟩ := bind_ok h
  obtain ⟨b, hb, ha⟩ := bind_ok ha
  have hnb := fold_inv NoQuoteState _ (fun s s' c hs h => (noQuote_step d hd s s' (some c) hs h).1) _ s b hs hb
  rw [List.foldlM_cons] at ha
  obtain ⟨a', ha', ha⟩ := bind_ok ha
  cases ha
  have := (noQuote_step d hd b a (some '\n') hnb ha').2 rfl
  unfold processChar at h
  rcases this with e | e
  · rw [e] at h
    simp only [procInField] at h
    rw [if_neg (by rw [e]; decide)] at h
    exact (save_then d a s' _ h).1
  · rw [e] at h
    simp only [procEat] at h
    cases h
    rfl

theorem noQuote_offsets (d : Dialect) (hd : d.quoting = .none) : ∀ (lines : List (List Char)) (s : CsvSt) (n : Nat) (offs : List Nat),
    NoQuoteState s → recordOffsets d s n lines = .ok offs → offs = List.range' (n + 1) lines.length := by
  intro lines
  induction lines with
  | nil => intro s n offs _ h; cases h; rfl
  | cons line rest ih =>
    intro s n offs hs h
    simp only [recordOffsets] at h
    obtain ⟨s1, h1, h⟩ := bind_ok h
    have hst := noQuote_line d hd s s1 line hs h1
    rw [if_pos hst] at h
    obtain ⟨more, hm, h⟩ := bind_ok h
    cases h
    rw [ih { s1 with fields := [] } (n + 1) more (Or.inl hst) hm]
    simp [List.range'_succ]

/-- the positions found are the positions of the records -/
theorem findNewlines_restart (d : Dialect) (lines : List (List Char)) (recs : List (List (List Char))) (h : parseLines d {} lines = .ok recs) :
    ∃ offs, findNewlines d lines = .ok offs ∧ offs.length = recs.length + 1 ∧
      ∀ i, i < recs.length → parseLines d {} (lines.drop (offs.getD i 0)) = .ok (recs.drop i) := by
  obtain ⟨offs, ho, hlen, hat⟩ := offsets_restart d lines lines {} 0 recs (fun _ => ⟨rfl, rfl⟩) (by simp) h
  have key : ∀ i, i < recs.length → parseLines d {} (lines.drop ((0 :: offs).getD i 0)) = .ok (recs.drop i) := by
    intro i hi
    cases i with
    | zero => simpa using h
    | succ i =>
      have := hat i (by omega)
      have h2 : offs[i]? = some offs[i] := List.getElem?_eq_getElem (by omega)
      simpa [h2] using this
  refine ⟨0 :: offs, ?_, by simp [hlen], key⟩
  unfold findNewlines
  by_cases hq : d.quoting = .none
  · rw [if_pos hq]
    have := noQuote_offsets d hq lines {} 0 offs (Or.inl rfl) ho
    rw [this, List.range_eq_range', List.range'_succ]
  · rw [if_neg hq, ho]
    rfl

/-! ## tasks -/

theorem plan_rows {β : Type} (l : List β) (ps maxLine : Nat) (hps : 0 < ps) (hm : maxLine ≤ l.length) : ∀ (k r : Nat), maxLine - r ≤ k →
    ((planTasks ps maxLine r).flatMap fun t => (l.drop t.1).take t.2) = (l.take maxLine).drop r := by
  intro k
  induction k with
  | zero =>
    intro r hk
    rw [planTasks, dif_neg (by omega)]
    simp only [List.flatMap_nil]
    rw [List.drop_eq_nil_of_le]
    rw [List.length_take]
    omega
  | succ k ih =>
    intro r hk
    rw [planTasks]
    by_cases h : r < maxLine ∧ 0 < ps
    · rw [dif_pos h, List.flatMap_cons, ih _ (by omega)]
      dsimp only
      have h1 : min (r + ps) maxLine = r + (min (r + ps) maxLine - r) := by omega
      generalize hc : min (r + ps) maxLine - r = c at h1 ⊢
      rw [h1]
      have h2 : (l.drop r).take c = ((l.take maxLine).drop r).take c := by
        rw [List.drop_take, List.take_take]
        congr 1
        omega
      rw [h2, show (l.take maxLine).drop (r + c) = ((l.take maxLine).drop r).drop c by rw [List.drop_drop]]
      exact List.take_append_drop c _
    · rw [dif_neg h, List.flatMap_nil, List.drop_eq_nil_of_le]
      rw [List.length_take]
      omega

theorem plan_bounds (ps maxLine : Nat) : ∀ (k r : Nat), maxLine - r ≤ k → ∀ t ∈ planTasks ps maxLine r,
    r ≤ t.1 ∧ t.1 + t.2 ≤ maxLine ∧ 0 < t.2 ∧ t.2 ≤ ps := by
  intro k
  induction k with
  | zero =>
    intro r hk t ht
    rw [planTasks, dif_neg (by omega)] at ht
    simp at ht
  | succ k ih =>
    intro r hk t ht
    rw [planTasks] at ht
    by_cases h : r < maxLine ∧ 0 < ps
    · rw [dif_pos h] at ht
      rcases List.mem_cons.1 ht with rfl | ht
      · dsimp only
        omega
      · have := ih _ (by omega) t ht
        omega
    · rw [dif_neg h] at ht
      simp at ht

theorem pageLoop_eq (skip : Option Bool) (count : Nat) (recs : List (List (List Char))) : ∀ i,
    pageLoop skip count i recs = (recs.take (count - i)).filter fun r => !checkSkip skip r := by
  induction recs with
  | nil => intro i; simp [pageLoop]
  | cons r rest ih =>
    intro i
    unfold pageLoop
    by_cases hs : checkSkip skip r = true
    · rw [if_pos hs, ih]
      by_cases hi : i < count
      · rw [show count - i = (count - (i + 1)) + 1 by omega, List.take_succ_cons, List.filter_cons]
        simp [hs]
      · rw [show count - i = 0 by omega, show count - (i + 1) = 0 by omega]
        simp
    · rw [if_neg hs]
      by_cases hi : i ≥ count
      · rw [if_pos hi, show count - i = 0 by omega]
        simp
      · rw [if_neg hi, ih, show count - i = (count - (i + 1)) + 1 by omega, List.take_succ_cons, List.filter_cons]
        simp [hs]

/-! ## fields -/

theorem row_fields (f : Nat → List Char) (n : Nat) : ∀ (l : List Nat), l.Pairwise (· < ·) → ∀ j, j < l.length →
    ((l.filter fun i => decide (i < n)).map f ++ List.replicate (l.length - ((l.filter fun i => decide (i < n)).map f).length) []).getD j [] =
      if l.getD j 0 < n then f (l.getD j 0) else [] := by
  intro l
  induction l with
  | nil => intro _ j hj; simp at hj
  | cons a t ih =>
    intro hp j hj
    obtain ⟨ha, hp⟩ := List.pairwise_cons.1 hp
    by_cases han : a < n
    · rw [List.filter_cons, if_pos (by simpa using han)]
      cases j with
      | zero => simp [han]
      | succ j =>
        have := ih hp j (by simpa using hj)
        simpa using this
    · have hnone : (t.filter fun i => decide (i < n)) = [] := by
        rw [List.filter_eq_nil_iff]
        intro x hx
        have := ha x hx
        simp only [decide_eq_true_eq]
        omega
      rw [List.filter_cons, if_neg (by simpa using han), hnone]
      have hge : ¬ (a :: t).getD j 0 < n := by
        cases j with
        | zero => simpa using han
        | succ j =>
          have hj' : j < t.length := by simpa using hj
          have h2 : t[j]? = some t[j] := List.getElem?_eq_getElem hj'
          have := ha t[j] (List.getElem_mem _)
          have h3 : (a :: t).getD (j + 1) 0 = t[j] := by simp [List.getD, h2]
          omega
      rw [if_neg hge]
      simp only [List.map_nil, List.nil_append, List.length_nil, Nat.sub_zero, List.getD]
      cases h : (List.replicate (a :: t).length ([] : List Char))[j]? with
      | none => rfl
      | some x =>
        have := List.mem_of_getElem? h
        simp only [List.mem_replicate] at this
        rw [this.2]
        rfl

theorem range_filter_sorted (n : Nat) (p : Nat → Bool) : ((List.range n).filter p).Pairwise (· < ·) := List.Pairwise.filter _ List.pairwise_lt_range

theorem importRow_get (n : Nat) (p : Nat → Bool) (r : List (List Char)) (j : Nat) (hj : j < ((List.range n).filter p).length) :
    (importRow ((List.range n).filter p) r).getD j [] = r.getD (((List.range n).filter p).getD j 0) [] := by
  have h1 : ((List.range r.length).filter fun i => decide (i ∈ (List.range n).filter p)) = ((List.range n).filter p).filter fun i => decide (i < r.length) := by
    apply List.Perm.eq_of_pairwise (le := fun a b => a < b)
    · intro a b _ _ h1 h2; omega
    · exact range_filter_sorted _ _
    · exact List.Pairwise.filter _ (range_filter_sorted _ _)
    · apply (List.perm_ext_iff_of_nodup ?_ ?_).2
      · intro a
        simp only [List.mem_filter, List.mem_range, decide_eq_true_eq]
        tauto
      · exact List.nodup_range.filter _
      · exact (List.nodup_range.filter _).filter _
  unfold importRow
  dsimp only
  rw [h1, row_fields (fun i => r.getD i []) r.length _ (range_filter_sorted _ _) j hj]
  by_cases h : ((List.range n).filter p).getD j 0 < r.length
  · rw [if_pos h]
  · rw [if_neg h]
    rw [List.getD, List.getElem?_eq_none (by omega)]
    rfl

/-! ## the theorem -/

/-- the rows an import is asked for: after the header row and `start` rows, at most `limit` of them, without those to be skipped -/
def requestedRows (o : ImportOpts) (recs : List (List (List Char))) : List (List (List Char)) :=
  let body := recs.drop ((if o.headers then 1 else 0) + o.headerRow + o.start)
  (match o.limit with | some l => body.take l | none => body).filter fun r => !checkSkip o.skip r

theorem idxOf_le_of_getElem {α : Type} [BEq α] [LawfulBEq α] {l : List α} {i : Nat} {c : α} (h : i < l.length) (e : l[i] = c) : l.idxOf c ≤ i := by
  induction l generalizing i with
  | nil => simp at h
  | cons a t ih =>
    by_cases ha : a = c
    · simp [ha]
    · cases i with
      | zero => exact absurd e ha
      | succ i =>
        rw [List.idxOf_cons_ne t ha]
        have := ih (i := i) (by simpa using h) (by simpa using e)
        omega

theorem find_columns {β : Type} (names : List (List Char)) (cols : List (List Char)) (c : List Char) (hc : c ∈ cols) (hn : c ∈ names) (g : Nat → β) :
    let fields := (List.range names.length).filter fun i => decide (names.getD i [] ∈ cols)
    ∃ j, j < fields.length ∧ fields.getD j 0 = names.idxOf c ∧
      (((List.range fields.length).map fun j => (names.getD (fields.getD j 0) [], g j)).find? fun p => decide (p.1 = c)) = some (c, g j) := by
  intro fields
  have hidx : names.idxOf c < names.length := List.idxOf_lt_length_of_mem hn
  have hget : names.getD (names.idxOf c) [] = c := by
    rw [List.getD, List.getElem?_eq_getElem hidx]
    simp
  have hmem : names.idxOf c ∈ fields := by
    simp only [fields, List.mem_filter, List.mem_range, decide_eq_true_eq]
    exact ⟨hidx, by rw [hget]; exact hc⟩
  obtain ⟨j, hj, hje⟩ := List.getElem_of_mem hmem
  have hgj : fields.getD j 0 = names.idxOf c := by rw [List.getD, List.getElem?_eq_getElem hj, Option.getD_some, hje]
  refine ⟨j, hj, hgj, ?_⟩
  rw [List.find?_eq_some_iff_append]
  refine ⟨by simp, ((List.range fields.length).take j).map (fun j => (names.getD (fields.getD j 0) [], g j)),
    ((List.range fields.length).drop (j + 1)).map (fun j => (names.getD (fields.getD j 0) [], g j)), ?_, ?_⟩
  · have h1 : List.range fields.length = (List.range fields.length).take j ++ j :: (List.range fields.length).drop (j + 1) := by
      conv_lhs => rw [← List.take_append_drop j (List.range fields.length)]
      congr 1
      rw [List.drop_eq_getElem_cons (by simpa using hj)]
      simp
    conv_lhs => rw [h1]
    rw [List.map_append, List.map_cons, hgj, hget]
  · intro p hp
    obtain ⟨i, hi, rfl⟩ := List.mem_map.1 hp
    have hij : i < j := by
      rw [List.take_range] at hi
      have := List.mem_range.1 hi
      omega
    have hlt : fields.getD i 0 < fields.getD j 0 := by
      have hi' : i < fields.length := by omega
      have := List.pairwise_iff_getElem.1 (range_filter_sorted names.length fun i => decide (names.getD i [] ∈ cols)) i j hi' hj hij
      rw [List.getD, List.getD, List.getElem?_eq_getElem hj, List.getElem?_eq_getElem (show i < fields.length by omega)]
      exact this
    have hne : names.getD (fields.getD i 0) [] ≠ c := by
      rw [hgj] at hlt
      intro e
      have h2 : fields.getD i 0 < names.length := by omega
      rw [List.getD, List.getElem?_eq_getElem h2, Option.getD_some] at e
      have := idxOf_le_of_getElem h2 e
      omega
    simpa using hne

/-- Spec: the lines of a file that are looked at: those after the header and the start, up to the limit -/
def bodyRows (o : ImportOpts) (recs : List (List (List Char))) : List (List (List Char)) :=
  let body := recs.drop ((if o.headers then 1 else 0) + o.headerRow + o.start)
  match o.limit with | some l => body.take l | none => body

/-- Spec: among any `ps` rows that make a page there is one that is not skipped -/
def KeptEach (o : ImportOpts) (ps : Nat) (recs : List (List (List Char))) : Prop :=
  ∀ k, k * ps < (bodyRows o recs).length → ∃ r ∈ ((bodyRows o recs).drop (k * ps)).take ps, checkSkip o.skip r = false

theorem kept_none (o : ImportOpts) (ps : Nat) (hps : 0 < ps) (recs : List (List (List Char))) (h : ∀ r ∈ bodyRows o recs, checkSkip o.skip r = false) : KeptEach o ps recs := by
  intro k hk
  have hne : ((bodyRows o recs).drop (k * ps)).take ps ≠ [] := by
    apply List.ne_nil_of_length_pos
    rw [List.length_take, List.length_drop]
    omega
  obtain ⟨r, l, e⟩ := List.exists_cons_of_ne_nil hne
  refine ⟨r, by rw [e]; exact List.mem_cons_self, h r (List.mem_of_mem_drop (List.mem_of_mem_take (by rw [e]; exact List.mem_cons_self)))⟩

theorem kept_of_none (o : ImportOpts) (h : o.skip = none) (ps : Nat) (hps : 0 < ps) (recs : List (List (List Char))) : KeptEach o ps recs :=
  kept_none o ps hps recs (by intro r _; rw [h]; rfl)

theorem body_lines (o : ImportOpts) (recs : List (List (List Char))) :
    (recs.take (lastRow o.limit recs.length (o.start + ((if o.headers = true then 1 else 0) + o.headerRow)))).drop (o.start + ((if o.headers = true then 1 else 0) + o.headerRow)) = bodyRows o recs := by
  unfold bodyRows
  dsimp only
  generalize (if o.headers = true then 1 else 0) + o.headerRow = offsetRow
  rw [Nat.add_comm offsetRow o.start]
  unfold lastRow
  cases o.limit with
  | none => simp
  | some l =>
    dsimp only
    rw [List.drop_take]
    by_cases hle : recs.length ≤ l + (o.start + offsetRow)
    · rw [Nat.min_eq_left hle, List.take_of_length_le (by rw [List.length_drop]), List.take_of_length_le (by rw [List.length_drop]; omega)]
    · rw [Nat.min_eq_right (by omega)]
      congr 1
      omega

/-- the rows of a task are `ps` rows, fewer at the end -/
theorem plan_windows {β : Type} (l : List β) (ps maxLine : Nat) (hps : 0 < ps) (hm : maxLine ≤ l.length) : ∀ (n r : Nat), maxLine - r ≤ n → ∀ t ∈ planTasks ps maxLine r,
    ∃ k, k * ps < ((l.take maxLine).drop r).length ∧ (l.drop t.1).take t.2 = (((l.take maxLine).drop r).drop (k * ps)).take ps := by
  intro n
  induction n with
  | zero =>
    intro r hk t ht
    rw [planTasks, dif_neg (by omega)] at ht
    simp at ht
  | succ n ih =>
    intro r hk t ht
    rw [planTasks] at ht
    split at ht
    · rename_i h
      rcases List.mem_cons.1 ht with rfl | ht
      · refine ⟨0, by rw [List.length_drop, List.length_take]; omega, ?_⟩
        rw [Nat.zero_mul, List.drop_zero, List.drop_take, List.take_take]
        congr 1
        omega
      · by_cases hend : r + ps ≤ maxLine
        · rw [Nat.min_eq_left hend] at ht
          obtain ⟨k, h1, h2⟩ := ih (r + ps) (by omega) t ht
          refine ⟨k + 1, ?_, ?_⟩
          · rw [List.length_drop, List.length_take] at h1 ⊢
            rw [Nat.succ_mul]
            omega
          · rw [h2, List.drop_drop, List.drop_drop, Nat.succ_mul]
            congr 2
            omega
        · rw [Nat.min_eq_right (by omega), planTasks, dif_neg (by omega)] at ht
          cases ht
    · cases ht

/-- every window is the rows of a task -/
theorem window_task {β : Type} (l : List β) (ps maxLine : Nat) (hps : 0 < ps) (hm : maxLine ≤ l.length) : ∀ (k r : Nat), r + k * ps < maxLine → ∃ t ∈ planTasks ps maxLine r,
    (l.drop t.1).take t.2 = (((l.take maxLine).drop r).drop (k * ps)).take ps := by
  intro k
  induction k with
  | zero =>
    intro r hk
    rw [planTasks, dif_pos ⟨by omega, hps⟩]
    refine ⟨_, List.mem_cons_self, ?_⟩
    rw [Nat.zero_mul, List.drop_zero, List.drop_take, List.take_take]
    congr 1
    omega
  | succ k ih =>
    intro r hk
    rw [Nat.succ_mul] at hk
    obtain ⟨t, ht, h⟩ := ih (r + ps) (by omega)
    rw [planTasks, dif_pos ⟨by omega, hps⟩]
    refine ⟨t, List.mem_cons_of_mem _ (by rw [Nat.min_eq_left (by omega)]; exact ht), ?_⟩
    rw [h, List.drop_drop, List.drop_drop, Nat.succ_mul]
    congr 2
    omega

/-- An import without type guessing: the requested rows, cut into blocks at the same places for every column.  No block is empty exactly if no page loses all its rows. -/
theorem import_pages (mk : List Char → Nat → List Char) (num : Nat → List Char) (d : Dialect) (o : ImportOpts) (ps : Nat) (hps : 0 < ps) (lines : List (List Char))
    (recs : List (List (List Char))) (hparse : parseLines d {} lines = .ok recs) (hhdr : o.headerRow < recs.length)
    (hcols : ∀ c ∈ o.columns.getD (fieldNames mk num o.headers ((recs.getD o.headerRow []).map stripEscape)),
      c ∈ fieldNames mk num o.headers ((recs.getD o.headerRow []).map stripEscape)) :
    let names := fieldNames mk num o.headers ((recs.getD o.headerRow []).map stripEscape)
    let cols := o.columns.getD names
    ∃ (table : List (List Char × List (List (List Char)))) (blocks : List (List (List (List Char)))), importText mk num d o ps lines = .ok table ∧ table.map (·.1) = uniqueNames mk cols ∧ table.length = cols.length ∧
      blocks.flatten = requestedRows o recs ∧ (∀ b ∈ blocks, b.length ≤ ps) ∧ ((∀ b ∈ blocks, b ≠ []) ↔ KeptEach o ps recs) ∧
      ∀ k, k < cols.length → ∀ col, table[k]? = some col → col.2 = blocks.map (·.map fun r => r.getD (names.idxOf (cols.getD k [])) []) := by
  intro names cols
  have hnames : fieldNames mk num o.headers ((recs.getD o.headerRow []).map stripEscape) = names := rfl
  have hcolsdef : o.columns.getD names = cols := rfl
  clear_value cols names
  rw [hnames, hcolsdef] at hcols
  obtain ⟨offs, ho, hlen, hat⟩ := findNewlines_restart d lines recs hparse
  have hnl : offs.length - 1 = recs.length := by omega
  have hfirst : readColumns d lines (offs.getD o.headerRow 0) = .ok ((recs.getD o.headerRow []).map stripEscape) := by
    unfold readColumns
    rw [hat _ hhdr]
    simp only [bind, Except.bind]
    rw [List.drop_eq_getElem_cons hhdr, List.headD_cons, List.getD, List.getElem?_eq_getElem hhdr, Option.getD_some]
  have hul : ∀ l : List (List Char), (uniqueNames mk l).length = l.length := by
    intro l
    have : ∀ (l acc : List (List Char)), (l.foldl (fun fs n => fs ++ [uniqueName mk n fs]) acc).length = acc.length + l.length := by
      intro l
      induction l with
      | nil => intro acc; rfl
      | cons a t ih => intro acc; rw [List.foldl_cons, ih]; simp; omega
    simpa [uniqueNames] using this l []
  generalize hfields : ((List.range names.length).filter fun i => decide (names.getD i [] ∈ cols)) = fields
  generalize hoff : (if o.headers = true then 1 else 0) + o.headerRow = offsetRow
  generalize hmax : lastRow o.limit recs.length (o.start + offsetRow) = maxLine
  have hmaxle : maxLine ≤ recs.length := by
    rw [← hmax]
    unfold lastRow
    cases o.limit with
    | none => exact Nat.le_refl _
    | some l => exact Nat.min_le_left _ _
  have hrows : (((recs.take maxLine).drop (o.start + offsetRow)).filter fun r => !checkSkip o.skip r) = requestedRows o recs := by
    unfold requestedRows
    dsimp only
    congr 1
    rw [hoff, ← hmax, Nat.add_comm offsetRow o.start]
    unfold lastRow
    cases o.limit with
    | none => simp
    | some l =>
      dsimp only
      rw [List.drop_take]
      by_cases hle : recs.length ≤ l + (o.start + offsetRow)
      · rw [Nat.min_eq_left hle, List.take_of_length_le (by rw [List.length_drop]), List.take_of_length_le (by rw [List.length_drop]; omega)]
      · rw [Nat.min_eq_right (by omega)]
        congr 1
        omega
  -- each task
  have htask : ∀ t ∈ planTasks ps maxLine (o.start + offsetRow),
      textReaderTask d lines o.skip fields (offs.getD t.1 0) t.2 =
        .ok ((List.range fields.length).map fun j => ((((recs.drop t.1).take t.2).filter fun r => !checkSkip o.skip r).map (importRow fields)).map fun r => r.getD j []) := by
    intro t ht
    obtain ⟨_, h2, h3, _⟩ := plan_bounds ps maxLine _ _ (Nat.le_refl _) t ht
    unfold textReaderTask
    rw [hat t.1 (by omega)]
    simp only [bind, Except.bind, pageLoop_eq, Nat.sub_zero]
  let pages : Nat → Nat × Nat → List (List Char) := fun j t =>
    ((((recs.drop t.1).take t.2).filter fun r => !checkSkip o.skip r).map (importRow fields)).map fun r => r.getD j []
  let res := (planTasks ps maxLine (o.start + offsetRow)).map fun t => (List.range fields.length).map fun j => pages j t
  have hres : ((planTasks ps maxLine (o.start + offsetRow)).map fun t => (offs.getD t.1 0, t.2)).mapM
      (fun t => textReaderTask d lines o.skip fields t.1 t.2) = .ok res := by
    rw [List.mapM_map]
    exact mapM_ok _ _ _ htask
  let dict := (List.range fields.length).map fun j => (names.getD (fields.getD j 0) [], res.map fun pages => pages.getD j [])
  let table := (uniqueNames mk cols).zip (cols.map fun c => (dict.find? fun p => decide (p.1 = c)).elim [] (·.2))
  have hlenz : table.length = cols.length := by
    simp only [table, List.length_zip, hul, List.length_map, Nat.min_self]
  refine ⟨table, (planTasks ps maxLine (o.start + offsetRow)).map fun t => ((recs.drop t.1).take t.2).filter fun r => !checkSkip o.skip r, ?_, ?_, hlenz, ?_, ?_, ?_, ?_⟩
  · unfold importText
    rw [ho]
    simp only [bind, Except.bind]
    rw [hnl, if_pos ⟨by omega, hhdr⟩, hfirst]
    dsimp only
    rw [hnames, hcolsdef]
    have hall : (cols.all fun c => decide (c ∈ names)) = true := by
      rw [List.all_eq_true]
      intro c hc
      simpa using hcols c hc
    rw [if_pos hall]
    have hres' := hres
    rw [← hfields, ← hmax, ← hoff] at hres'
    rw [hres']
    simp only [table, dict, ← hfields]
  · simp only [table]
    rw [List.map_fst_zip (by simp [hul])]
  · rw [← List.flatMap_def, ← hrows, ← plan_rows recs ps maxLine hps hmaxle _ _ (Nat.le_refl _), List.filter_flatMap]
  · intro b hb
    obtain ⟨t, ht, rfl⟩ := List.mem_map.1 hb
    obtain ⟨_, _, _, h4⟩ := plan_bounds ps maxLine _ _ (Nat.le_refl _) t ht
    refine Nat.le_trans (List.length_filter_le _ _) ?_
    rw [List.length_take]
    omega
  · have hbody := body_lines o recs
    rw [hoff, hmax] at hbody
    constructor
    · intro hb k hk
      obtain ⟨t, ht, hw⟩ := window_task recs ps maxLine hps hmaxle k (o.start + offsetRow) (by
        rw [← hbody, List.length_drop, List.length_take] at hk
        omega)
      have hne := hb _ (List.mem_map.2 ⟨t, ht, rfl⟩)
      obtain ⟨r, l, e⟩ := List.exists_cons_of_ne_nil hne
      have hr : r ∈ ((recs.drop t.1).take t.2).filter fun r => !checkSkip o.skip r := by rw [e]; exact List.mem_cons_self
      obtain ⟨h1, h2⟩ := List.mem_filter.1 hr
      rw [hw, hbody] at h1
      exact ⟨r, h1, by simpa using h2⟩
    · intro hkeep b hb
      obtain ⟨t, ht, rfl⟩ := List.mem_map.1 hb
      obtain ⟨k, hk, hw⟩ := plan_windows recs ps maxLine hps hmaxle _ _ (Nat.le_refl _) t ht
      rw [hbody] at hk hw
      obtain ⟨r, hr, hs⟩ := hkeep k hk
      rw [← hw] at hr
      exact List.ne_nil_of_mem (List.mem_filter.2 ⟨hr, by rw [hs]; rfl⟩)
  · intro k hk col hcol
    have hck : cols.getD k [] ∈ cols := by
      rw [List.getD, List.getElem?_eq_getElem hk, Option.getD_some]
      exact List.getElem_mem _
    have hcol2 : col.2 = (dict.find? fun p => decide (p.1 = cols.getD k [])).elim [] (·.2) := by
      have h1 : k < table.length := by omega
      rw [List.getElem?_eq_getElem h1] at hcol
      cases hcol
      simp only [table, List.getElem_zip, List.getElem_map]
      rw [List.getD, List.getElem?_eq_getElem hk, Option.getD_some]
    obtain ⟨j, hj, hje, hfind⟩ := find_columns names cols (cols.getD k []) hck (hcols _ hck) (fun j => res.map fun pages => pages.getD j [])
    rw [hfields] at hj hje hfind
    rw [hfind] at hcol2
    have hcol3 : col.2 = (planTasks ps maxLine (o.start + offsetRow)).map fun t => pages j t := by
      rw [hcol2]
      simp only [Option.elim_some, res, List.map_map]
      apply List.map_congr_left
      intro t _
      simp only [Function.comp_apply, List.getD, List.getElem?_map, List.getElem?_range hj, Option.map_some, Option.getD_some]
    rw [hcol3, List.map_map]
    apply List.map_congr_left
    intro t _
    simp only [pages, List.map_map, Function.comp_apply]
    apply List.map_congr_left
    intro r _
    simp only [Function.comp_apply]
    have := importRow_get names.length (fun i => decide (names.getD i [] ∈ cols)) r j (by rw [hfields]; exact hj)
    rw [hfields] at this
    rw [this, hje]

/-- **C38**.  If the file can be parsed into records `recs`, has the header row, and the wanted columns are among the headers, then the import succeeds.
Its columns are the wanted ones in order, under their own names (numbered when repeated), and each holds exactly the values of its field in the
requested rows, in order, split into pages of at most `pageSize` rows.  This holds for every quoting mode, also when records span several lines, and
although each task starts to parse in the middle of the file. -/
theorem C38_import (mk : List Char → Nat → List Char) (num : Nat → List Char) (d : Dialect) (o : ImportOpts) (ps : Nat) (hps : 0 < ps) (lines : List (List Char))
    (recs : List (List (List Char))) (hparse : parseLines d {} lines = .ok recs) (hhdr : o.headerRow < recs.length)
    (hcols : ∀ c ∈ o.columns.getD (fieldNames mk num o.headers ((recs.getD o.headerRow []).map stripEscape)),
      c ∈ fieldNames mk num o.headers ((recs.getD o.headerRow []).map stripEscape)) :
    let names := fieldNames mk num o.headers ((recs.getD o.headerRow []).map stripEscape)
    let cols := o.columns.getD names
    ∃ table, importText mk num d o ps lines = .ok table ∧ table.map (·.1) = uniqueNames mk cols ∧ table.length = cols.length ∧
      ∀ k, k < cols.length → ∀ col, table[k]? = some col →
        col.2.flatten = (requestedRows o recs).map (fun r => r.getD (names.idxOf (cols.getD k [])) []) ∧ ∀ page ∈ col.2, page.length ≤ ps := by
  intro names cols
  obtain ⟨table, blocks, h1, h2, h3, h4, h5, -, h6⟩ := import_pages mk num d o ps hps lines recs hparse hhdr hcols
  refine ⟨table, h1, h2, h3, fun k hk col hcol => ⟨?_, ?_⟩⟩
  · rw [h6 k hk col hcol, ← h4, ← List.map_flatten]
  · intro page hp
    rw [h6 k hk col hcol] at hp
    obtain ⟨b, hb, rfl⟩ := List.mem_map.1 hp
    rw [List.length_map]
    exact h5 b hb

/-- a file with a header, a record over two lines, an empty field and a missing field; two columns, skipping the first row -/
example : ∃ table, importText (fun n i => n ++ '_' :: (toString i).toList) (fun i => (toString i).toList) {}
      { columns := some ["b".toList, "a".toList], start := 1, limit := some 2 } 1
      ["a,b".toList, "1,2".toList, "\"x".toList, "y\",".toList, "3".toList, "4,5".toList] = .ok table ∧
    table.map (·.1) = ["b".toList, "a".toList] ∧ ∀ col, table[1]? = some col → col.2.flatten = ["x\\ny".toList, "3".toList] := by
  obtain ⟨t, h1, h2, h3, h4⟩ := C38_import (fun n i => n ++ '_' :: (toString i).toList) (fun i => (toString i).toList) {}
    { columns := some ["b".toList, "a".toList], start := 1, limit := some 2 } 1 (by decide)
    ["a,b".toList, "1,2".toList, "\"x".toList, "y\",".toList, "3".toList, "4,5".toList]
    [["a".toList, "b".toList], ["1".toList, "2".toList], ["x\\ny".toList, []], ["3".toList], ["4".toList, "5".toList]]
    (by decide +kernel) (by decide) (by decide +kernel)
  refine ⟨t, h1, ?_, ?_⟩
  · rw [h2]; decide +kernel
  · intro col hc
    rw [(h4 1 (by decide) col hc).1]
    decide +kernel

end Tablite
