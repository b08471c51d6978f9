import Verif.Props.Encoded

/-! C97: texts with CR LF at the line ends. -/
namespace Tablite

/-- spec: a line that is a record of its own and does not end in an escape character -/
def OwnRecord (d : Dialect) (line : List Char) : Prop :=
  (∃ s, feedLine d {} line = .ok s ∧ s.state = .startRecord) ∧ line.getLast? ≠ some d.escapechar

theorem escaped_after (d : Dialect) (s s' : CsvSt) (c : Char) (h : processChar d s (some c) = .ok s') (he : s'.state = .escapedChar) : c = d.escapechar := by
  by_contra hc
  have hc' : (c == d.escapechar) = false := by simpa using hc
  have hadd : ∀ (a b : CsvSt), addChar a c = .ok b → b.state = a.state := fun a b => addChar_state a b c
  unfold processChar at h
  have hsave : ∀ (st : CsvState), st ≠ .escapedChar → (do .ok { (← saveField d s) with state := st } : Except Err CsvSt) = .ok s' → False := by
    intro st hst h
    obtain ⟨h1, -, -⟩ := save_then d s s' _ h
    rw [h1] at he
    exact hst he
  have hadd2 : ∀ (a : CsvSt) (st : CsvState) (x : Char), st ≠ .escapedChar → (do .ok { (← addChar a x) with state := st } : Except Err CsvSt) = .ok s' → False := by
    intro a st x hst h
    have := add_then _ s' _ _ h
    rw [this] at he
    exact hst he
  have hstart : procStart d s (some c) = .ok s' → False := by
    intro h
    unfold procStart at h
    dsimp only at h
    rw [hc'] at h
    split at h
    · exact hsave _ (by decide) h
    · split at h
      · cases h; cases he
      · split at h
        · contradiction
        · split at h
          · cases h; cases he
          · split at h
            · exact hsave _ (by decide) h
            · exact hadd2 _ _ _ (by decide) h
  have hin : (s.state = .inField ∨ s.state = .afterEscapedCrnl) → procInField d s (some c) = .ok s' → False := by
    intro hst h
    unfold procInField at h
    dsimp only at h
    rw [hc'] at h
    split at h
    · exact hsave _ (by decide) h
    · split at h
      · contradiction
      · split at h
        · exact hsave _ (by decide) h
        · rw [hadd _ _ h] at he
          rcases hst with hst | hst <;> rw [hst] at he <;> cases he
  split at h
  · exact hstart h
  · exact hstart h
  · unfold procEscaped at h
    obtain ⟨a, -, h⟩ := bind_ok h
    exact hadd2 _ _ _ (by decide) h
  · next e => exact hin (.inl e) h
  · next e => exact hin (.inr e) h
  · next e =>
    unfold procQuoted at h
    dsimp only at h
    rw [hc'] at h
    split at h
    · contradiction
    · split at h
      · cases h
        cases hd : d.doublequote <;> simp [hd] at he
      · rw [hadd _ _ h, e] at he; cases he
  · unfold procEscapeQuoted at h
    exact hadd2 _ _ _ (by decide) h
  · unfold procQuoteQuoted at h
    dsimp only at h
    split at h
    · exact hadd2 _ _ _ (by decide) h
    · split at h
      · exact hsave _ (by decide) h
      · split at h
        · refine hsave _ ?_ h
          simp
        · split at h
          · exact hadd2 _ _ _ (by decide) h
          · cases h
  · next e =>
    unfold procEat at h
    dsimp only at h
    split at h
    · cases h; rw [e] at he; cases he
    · cases h

/-- the fields of the record so far are cut at the end of a line -/
theorem feed_cr (d : Dialect) (hq : isCrnl d.quotechar = false) (hdl : isCrnl d.delimiter = false) (line : List Char) (h : OwnRecord d line) :
    feedLine d {} (line ++ ['\r']) = feedLine d {} line := by
  obtain ⟨⟨s, hs, hst⟩, hl⟩ := h
  unfold feedLine at hs ⊢
  rw [List.foldlM_append] at hs ⊢
  rw [List.foldlM_append]
  obtain ⟨s2, hs2, hs⟩ := bind_ok hs
  obtain ⟨s1, hs1, hs2⟩ := bind_ok hs2
  have h1 : s1.state ≠ .escapedChar := by
    intro he
    rcases List.eq_nil_or_concat line with rfl | ⟨l, c, rfl⟩
    · cases hs1; cases he
    · rw [List.concat_eq_append, List.foldlM_append] at hs1
      obtain ⟨s0, -, hs1⟩ := bind_ok hs1
      have : processChar d s0 (some c) = .ok s1 := by
        simpa using hs1
      exact hl (by simpa using escaped_after d s0 s1 c this he)
  rw [hs1]
  have hs2' : processChar d s1 (some '\n') = .ok s2 := by simpa using hs2
  have hcr : processChar d s1 (some '\r') = .ok s2 ∧ processChar d s2 (some '\n') = .ok s2 := by
    have hsame : (s1.state = .startRecord ∨ s1.state = .startField → procStart d s1 (some '\n') = .ok s2 → procStart d s1 (some '\r') = .ok s2 ∧ s2.state = .eatCrnl) := by
      intro _ h
      have e1 : procStart d s1 (some '\n') = (do .ok { (← saveField d s1) with state := .eatCrnl }) := rfl
      have e2 : procStart d s1 (some '\r') = (do .ok { (← saveField d s1) with state := .eatCrnl }) := rfl
      rw [e1] at h
      exact ⟨e2.trans h, (save_then d s1 s2 _ h).1⟩
    have hsame2 : procInField d s1 (some '\n') = .ok s2 → procInField d s1 (some '\r') = .ok s2 ∧ s2.state = .eatCrnl := by
      intro h
      have e1 : procInField d s1 (some '\n') = (do .ok { (← saveField d s1) with state := .eatCrnl }) := rfl
      have e2 : procInField d s1 (some '\r') = (do .ok { (← saveField d s1) with state := .eatCrnl }) := rfl
      rw [e1] at h
      exact ⟨e2.trans h, (save_then d s1 s2 _ h).1⟩
    have heat : s2.state = .eatCrnl → processChar d s2 (some '\n') = .ok s2 := by
      intro h
      unfold processChar
      rw [h]
      rfl
    have hne : ∀ c x : Char, isCrnl c = true → isCrnl x = false → (c == x) = false := by
      intro c x h1 h2
      rw [beq_eq_false_iff_ne]
      rintro rfl
      rw [h1] at h2; cases h2
    have hquoted : (s2.state = .inQuotedField ∨ s2.state = .escapeInQuotedField) → CsvState.startRecord = .inQuotedField := by
      intro h
      unfold processChar at hs
      rcases h with h | h <;> simp only [h] at hs
      · cases hs; rw [← hst, h]
      · unfold procEscapeQuoted at hs
        rw [← hst, add_then _ _ _ _ hs]
    have goal : processChar d s1 (some '\r') = .ok s2 ∧ s2.state = .eatCrnl := by
      unfold processChar at hs2' ⊢
      cases hst1 : s1.state <;> simp only [hst1] at hs2' ⊢
      · exact hsame (.inl hst1) hs2'
      · exact hsame (.inr hst1) hs2'
      · exact absurd hst1 h1
      · exact hsame2 hs2'
      · refine absurd (hquoted ?_) (by decide)
        unfold procQuoted at hs2'
        simp only [hne '\n' d.quotechar rfl hq, Bool.false_and, Bool.false_eq_true, if_false] at hs2'
        split at hs2'
        · cases hs2'; exact .inr rfl
        · rw [addChar_state _ _ _ hs2', hst1]; exact .inl rfl
      · refine absurd (hquoted ?_) (by decide)
        unfold procEscapeQuoted at hs2'
        exact .inl (add_then _ _ _ _ hs2')
      · unfold procQuoteQuoted at hs2' ⊢
        simp only [Option.getD_some, hne '\n' d.quotechar rfl hq, hne '\n' d.delimiter rfl hdl, hne '\r' d.quotechar rfl hq, hne '\r' d.delimiter rfl hdl] at hs2' ⊢
        have e1 : isCrnl '\n' = true := rfl
        have e2 : isCrnl '\r' = true := rfl
        simp only [e1, e2, Bool.and_false, Bool.true_or, if_true, Option.isNone_some, Bool.false_eq_true, if_false] at hs2' ⊢
        exact ⟨hs2', (save_then d s1 s2 _ hs2').1⟩
      · have e1 : procEat s1 (some '\n') = .ok s1 := rfl
        have e2 : procEat s1 (some '\r') = .ok s1 := rfl
        rw [e1] at hs2'
        rw [e2]
        cases hs2'
        exact ⟨rfl, hst1⟩
      · exact hsame2 hs2'
    exact ⟨goal.1, heat goal.2⟩
  have e1 : List.foldlM (fun s c => processChar d s (some c)) s1 ['\r'] = .ok s2 := by
    simpa using hcr.1
  have e2 : List.foldlM (fun s c => processChar d s (some c)) s2 ['\n'] = .ok s2 := by
    simpa using hcr.2
  rw [List.foldlM_append, hs1]
  simp only [bind, Except.bind, e1, e2]
  rw [hs2]

/-- the two ways of cutting a text differ by a carriage return at the end of lines -/
theorem lines_cr (text : List Char) : ∀ cur, List.Forall₂ (fun a b => a = b ∨ a = b ++ ['\r']) (cutLines id id cur text) (readLines cur text) := by
  induction text with
  | nil =>
    intro cur
    rw [cutLines, readLines]
    split
    · exact .nil
    · exact .cons (.inl rfl) .nil
  | cons c t ih =>
    intro cur
    rw [cutLines, readLines]
    split
    · refine .cons ?_ (ih [])
      unfold dropCr
      split
      · rename_i h
        right
        rcases List.eq_nil_or_concat cur with rfl | ⟨l, x, rfl⟩
        · cases h
        · simp at h
          simp [h]
      · exact .inl rfl
    · exact ih _

theorem parse_cr (d : Dialect) (hq : isCrnl d.quotechar = false) (hdl : isCrnl d.delimiter = false) (L M : List (List Char))
    (h : List.Forall₂ (fun a b => a = b ∨ a = b ++ ['\r']) L M) : (∀ l ∈ M, OwnRecord d l) → parseLines d {} L = parseLines d {} M ∧
      ∀ n, recordOffsets d {} n L = recordOffsets d {} n M := by
  induction h with
  | nil => intro _; exact ⟨rfl, fun _ => rfl⟩
  | @cons a b L M hab _ ih =>
    intro hM
    obtain ⟨ih1, ih2⟩ := ih fun l hl => hM l (List.mem_cons_of_mem _ hl)
    have hb := hM b List.mem_cons_self
    have e : feedLine d {} a = feedLine d {} b := by
      rcases hab with rfl | rfl
      · rfl
      · exact feed_cr d hq hdl b hb
    obtain ⟨⟨s, hs, hst⟩, -⟩ := hb
    have hr := clean_reset s (clean_line d {} s b (fun _ => ⟨rfl, rfl⟩) hs) hst
    constructor
    · rw [parseLines_cons, parseLines_cons, e, hs]
      simp only [bind, Except.bind, if_pos hst]
      rw [hr, ih1]
    · intro n
      rw [recordOffsets, recordOffsets, e, hs]
      simp only [bind, Except.bind, if_pos hst]
      rw [hr, ih2]

theorem forall₂_drop' {α β : Type} {R : α → β → Prop} {l : List α} {m : List β} (h : List.Forall₂ R l m) (n : Nat) : List.Forall₂ R (l.drop n) (m.drop n) := by
  induction h generalizing n with
  | nil => simp
  | cons hab h ih =>
    cases n with
    | zero => exact .cons hab h
    | succ n => exact ih n

theorem import_cr (mk : List Char → Nat → List Char) (num : Nat → List Char) (d : Dialect) (hq : isCrnl d.quotechar = false) (hdl : isCrnl d.delimiter = false) (o : ImportOpts) (ps : Nat)
    (L M : List (List Char)) (h : List.Forall₂ (fun a b => a = b ∨ a = b ++ ['\r']) L M) (hM : ∀ l ∈ M, OwnRecord d l) :
    importText mk num d o ps L = importText mk num d o ps M := by
  have h1 : findNewlines d L = findNewlines d M := by
    unfold findNewlines
    rw [h.length_eq, (parse_cr d hq hdl L M h hM).2 0]
  have h2 : ∀ n, parseLines d {} (L.drop n) = parseLines d {} (M.drop n) := fun n =>
    (parse_cr d hq hdl _ _ (forall₂_drop' h n) fun l hl => hM l (List.mem_of_mem_drop hl)).1
  unfold importText readColumns textReaderTask
  simp only [h1, h2]

/-- **C97** (line ends of Windows): a text without NUL is imported alike from UTF-8 with or without byte order mark, and from UTF-16 in both orders of bytes, also where
lines end in CR LF, if every line is a record of its own that does not end in an escape character -/
theorem C97_crlf_partial (mk : List Char → Nat → List Char) (num : Nat → List Char) (d : Dialect) (hq : isCrnl d.quotechar = false) (hdl : isCrnl d.delimiter = false)
    (o : ImportOpts) (ps : Nat) (be : Bool) (text : List Char) (h0 : ∀ c ∈ text, c.toNat ≠ 0) (hb : text.head? ≠ some (Char.ofNat 0xFEFF))
    (hr : ∀ l ∈ readLines [] text, OwnRecord d (utf8 l)) :
    importFile mk num d o ps .utf16 (file16 be text) = importFile mk num d o ps .utf8 (utf8 text) ∧
    importFile mk num d o ps .utf8 (bom8 ++ utf8 text) = importFile mk num d o ps .utf8 (utf8 text) := by
  rw [C97_utf16 mk num d o ps be text h0, C97_utf8 mk num d o ps text hb, C97_utf8_bom]
  refine ⟨import_cr mk num d hq hdl o ps _ _ ?_ ?_, rfl⟩
  · unfold rawLines
    rw [List.forall₂_map_left_iff, List.forall₂_map_right_iff]
    refine (lines_cr text []).imp fun a b hab => ?_
    rcases hab with rfl | rfl
    · exact .inl rfl
    · right
      unfold utf8
      rw [List.flatMap_append]
      rfl
  · intro l hl
    obtain ⟨l', hl', rfl⟩ := List.mem_map.1 hl
    exact hr l' hl'

/-- a text that meets the assumptions: two lines with CR LF, a comma in quotes -/
example : (∀ c ∈ "a,b\r\n\"x,y\",2\r\n".toList, c.toNat ≠ 0) ∧ "a,b\r\n\"x,y\",2\r\n".toList.head? ≠ some (Char.ofNat 0xFEFF) ∧
    readLines [] "a,b\r\n\"x,y\",2\r\n".toList = ["a,b".toList, "\"x,y\",2".toList] ∧
    ∀ l ∈ ["a,b".toList, "\"x,y\",2".toList], OwnRecord {} (utf8 l) := by
  refine ⟨by decide +kernel, by decide +kernel, by decide +kernel, ?_⟩
  intro l hl
  rcases List.mem_cons.1 hl with rfl | hl
  · exact ⟨⟨{ fields := [['a'], ['b']] }, by decide +kernel, rfl⟩, by decide +kernel⟩
  · rcases List.mem_cons.1 hl with rfl | hl
    · exact ⟨⟨{ fields := [['x', ',', 'y'], ['2']] }, by decide +kernel, rfl⟩, by decide +kernel⟩
    · cases hl

end Tablite
