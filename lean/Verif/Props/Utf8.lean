import Verif.Props.Encoded
/-!
# C98: characters beyond ASCII in text files

The parser works on the bytes of UTF-8.  Here: what it returns is the UTF-8 of what the same parser returns on characters.
-/

namespace Tablite

/-! ## UTF-8 is injective -/

theorem utf8Of_inj (a b : Nat) (ha : a < 0x110000) (hb : b < 0x110000) (x y : List Char) (h : utf8Of a ++ x = utf8Of b ++ y) : a = b ∧ x = y := by
  have hd : ∀ (p q : Nat) (u v : List Char), p < 0xD800 → q < 0xD800 → byte p :: u = byte q :: v → p = q ∧ u = v := by
    intro p q u v hp hq h
    rw [List.cons.injEq] at h
    exact ⟨byte_inj p q hp hq h.1, h.2⟩
  unfold utf8Of at h
  by_cases a1 : a < 0x80 <;> by_cases b1 : b < 0x80
  · rw [if_pos a1, if_pos b1] at h
    obtain ⟨h1, h2⟩ := hd _ _ _ _ (by omega) (by omega) h
    exact ⟨h1, h2⟩
  · rw [if_pos a1, if_neg b1] at h
    exfalso
    split at h
    · obtain ⟨h1, -⟩ := hd _ _ _ _ (by omega) (by omega) h
      omega
    · split at h <;> (obtain ⟨h1, -⟩ := hd _ _ _ _ (by omega) (by omega) h; omega)
  · rw [if_neg a1, if_pos b1] at h
    exfalso
    split at h
    · obtain ⟨h1, -⟩ := hd _ _ _ _ (by omega) (by omega) h
      omega
    · split at h <;> (obtain ⟨h1, -⟩ := hd _ _ _ _ (by omega) (by omega) h; omega)
  · rw [if_neg a1, if_neg b1] at h
    by_cases a2 : a < 0x800 <;> by_cases b2 : b < 0x800
    · rw [if_pos a2, if_pos b2] at h
      obtain ⟨h1, h⟩ := hd _ _ _ _ (by omega) (by omega) h
      obtain ⟨h2, h⟩ := hd _ _ _ _ (by omega) (by omega) h
      exact ⟨by omega, h⟩
    · rw [if_pos a2, if_neg b2] at h
      exfalso
      split at h <;> (obtain ⟨h1, -⟩ := hd _ _ _ _ (by omega) (by omega) h; omega)
    · rw [if_neg a2, if_pos b2] at h
      exfalso
      split at h <;> (obtain ⟨h1, -⟩ := hd _ _ _ _ (by omega) (by omega) h; omega)
    · rw [if_neg a2, if_neg b2] at h
      by_cases a3 : a < 0x10000 <;> by_cases b3 : b < 0x10000
      · rw [if_pos a3, if_pos b3] at h
        obtain ⟨h1, h⟩ := hd _ _ _ _ (by omega) (by omega) h
        obtain ⟨h2, h⟩ := hd _ _ _ _ (by omega) (by omega) h
        obtain ⟨h3, h⟩ := hd _ _ _ _ (by omega) (by omega) h
        exact ⟨by omega, h⟩
      · rw [if_pos a3, if_neg b3] at h
        exfalso
        obtain ⟨h1, -⟩ := hd _ _ _ _ (by omega) (by omega) h
        omega
      · rw [if_neg a3, if_pos b3] at h
        exfalso
        obtain ⟨h1, -⟩ := hd _ _ _ _ (by omega) (by omega) h
        omega
      · rw [if_neg a3, if_neg b3] at h
        obtain ⟨h1, h⟩ := hd _ _ _ _ (by omega) (by omega) h
        obtain ⟨h2, h⟩ := hd _ _ _ _ (by omega) (by omega) h
        obtain ⟨h3, h⟩ := hd _ _ _ _ (by omega) (by omega) h
        obtain ⟨h4, h⟩ := hd _ _ _ _ (by omega) (by omega) h
        exact ⟨by omega, h⟩

/-- different texts have different bytes -/
theorem utf8_inj : ∀ (s t : List Char), utf8 s = utf8 t → s = t := by
  intro s
  induction s with
  | nil =>
    intro t h
    exact ((utf8_nil_iff t).1 h.symm).symm
  | cons c s ih =>
    intro t h
    cases t with
    | nil => exact absurd ((utf8_nil_iff _).1 h) (by simp)
    | cons d t =>
      obtain ⟨h1, h2⟩ := utf8Of_inj c.toNat d.toNat (char_le c) (char_le d) (utf8 s) (utf8 t) h
      have : c = d := by rw [← byte_char c, ← byte_char d, h1]
      rw [this, ih t h2]

theorem mem_map_utf8 (t : List Char) (l : List (List Char)) : utf8 t ∈ l.map utf8 ↔ t ∈ l := by
  constructor
  · intro h
    obtain ⟨x, hx, he⟩ := List.mem_map.1 h
    rw [← utf8_inj _ _ he]
    exact hx
  · exact fun h => List.mem_map_of_mem h

theorem length_le_utf8 (t : List Char) : t.length ≤ (utf8 t).length := by
  induction t with
  | nil => exact Nat.le_refl _
  | cons c t ih =>
    have e : utf8 (c :: t) = utf8Of c.toNat ++ utf8 t := rfl
    have := List.length_pos_iff.2 (utf8Of_ne_nil c.toNat)
    rw [e, List.length_append, List.length_cons]
    omega

/-! ## the parser on bytes -/

/-- spec: separator, text qualifier and escape character are ASCII (the code refuses a separator or qualifier of more than one byte) -/
def AsciiDialect (d : Dialect) : Prop := d.delimiter.toNat < 0x80 ∧ d.quotechar.toNat < 0x80 ∧ d.escapechar.toNat < 0x80

/-- a state of the parser in bytes -/
def encSt (s : CsvSt) : CsvSt := { s with field := utf8 s.field, fields := s.fields.map utf8 }

/-- what bytes give, characters give -/
def Sim (x y : Except Err CsvSt) : Prop := ∀ b, x = .ok b → ∃ s, y = .ok s ∧ b = encSt s

theorem Sim.ok (s : CsvSt) : Sim (.ok (encSt s)) (.ok s) := by
  intro b hb
  rw [Except.ok.injEq] at hb
  exact ⟨s, rfl, hb.symm⟩

theorem Sim.error (e : Err) (y : Except Err CsvSt) : Sim (.error e) y := by
  intro b hb
  exact absurd hb (by simp)

theorem Sim.bind {x y : Except Err CsvSt} (h : Sim x y) (f g : CsvSt → Except Err CsvSt) (hf : ∀ s, Sim (f (encSt s)) (g s)) : Sim (x >>= f) (y >>= g) := by
  intro b hb
  obtain ⟨a, ha, h2⟩ := bind_ok hb
  obtain ⟨s, hs, rfl⟩ := h a ha
  rw [hs]
  exact hf s b h2

theorem addChar_sim (s : CsvSt) (c : Char) (hc : c.toNat < 0x80) : Sim (addChar (encSt s) c) (addChar s c) := by
  intro b hb
  unfold addChar at hb ⊢
  have hl := length_le_utf8 s.field
  split at hb
  · exact absurd hb (by simp)
  · rename_i h
    have h' : ¬ (utf8 s.field).length ≥ fieldLimit := h
    rw [if_neg (by omega)]
    refine ⟨_, rfl, ?_⟩
    rw [Except.ok.injEq] at hb
    rw [← hb]
    unfold encSt
    simp only [utf8_append, utf8_single c hc]

theorem escapeBlanks_utf8 (f : List Char) : escapeBlanks (utf8 f) = utf8 (escapeBlanks f) := by
  induction f with
  | nil => rfl
  | cons c f ih =>
    have e : utf8 (c :: f) = utf8Of c.toNat ++ utf8 f := rfl
    have e2 : ∀ a b, escapeBlanks (a ++ b) = escapeBlanks a ++ escapeBlanks b := fun a b => List.flatMap_append
    have e3 : escapeBlanks (c :: f) = escapeBlanks [c] ++ escapeBlanks f := e2 [c] f
    rw [e, e2, ih, e3, utf8_append]
    congr 1
    by_cases hc : c.toNat < 0x80
    · rw [utf8Of_ascii c hc]
      unfold escapeBlanks
      simp only [List.flatMap_cons, List.flatMap_nil, List.append_nil]
      split
      · decide
      · split
        · decide
        · exact (utf8_single c hc).symm
    · have hhigh := utf8Of_high c.toNat (char_le c) (by omega)
      have hid : ∀ l : List Char, (∀ b ∈ l, 0x80 ≤ b.toNat) → escapeBlanks l = l := by
        intro l
        induction l with
        | nil => intro _; rfl
        | cons b l ih =>
          intro h
          have hb := h b List.mem_cons_self
          have e4 : escapeBlanks (b :: l) = escapeBlanks [b] ++ escapeBlanks l := e2 [b] l
          rw [e4, ih fun x hx => h x (List.mem_cons_of_mem _ hx)]
          unfold escapeBlanks
          simp only [List.flatMap_cons, List.flatMap_nil, List.append_nil]
          rw [if_neg, if_neg]
          · rfl
          · rintro rfl; exact absurd hb (by decide)
          · rintro rfl; exact absurd hb (by decide)
      have e5 : utf8 [c] = utf8Of c.toNat := List.append_nil _
      rw [hid _ hhigh, hid [c] (fun b hb => by rw [List.mem_singleton] at hb; rw [hb]; omega), e5]

theorem nimSpace_ascii (c : Char) (h : nimSpace c = true) : c.toNat < 0x80 := by
  unfold nimSpace at h
  simp only [Bool.or_eq_true, beq_iff_eq] at h
  rcases h with ((((rfl | rfl) | rfl) | rfl) | rfl) | rfl <;> decide

theorem stripTrailing_utf8 (f : List Char) : stripTrailing (utf8 f) = utf8 (stripTrailing f) := by
  unfold stripTrailing
  generalize hn : f.length = n
  induction n generalizing f with
  | zero =>
    have : f = [] := List.length_eq_zero_iff.1 hn
    rw [this]
    rfl
  | succ n ih =>
    rcases List.eq_nil_or_concat f with rfl | ⟨u, c, rfl⟩
    · rfl
    · rw [List.concat_eq_append] at hn ⊢
      rw [List.length_append, List.length_singleton] at hn
      rw [utf8_append, List.reverse_append, List.reverse_append, List.reverse_singleton]
      by_cases hs : nimSpace c = true
      · rw [utf8_single c (nimSpace_ascii c hs), List.reverse_singleton, List.singleton_append, List.singleton_append, List.dropWhile_cons, if_pos hs, List.dropWhile_cons, if_pos hs]
        exact ih u (by omega)
      · have hs' : nimSpace c = false := by simpa using hs
        have hr : ((utf8 [c]).reverse ++ (utf8 u).reverse).dropWhile nimSpace = (utf8 [c]).reverse ++ (utf8 u).reverse := by
          cases he : (utf8 [c]).reverse with
          | nil => exact absurd ((utf8_nil_iff _).1 (List.reverse_eq_nil_iff.1 he)) (by simp)
          | cons b r =>
            have hb : nimSpace b = false := by
              have hm : b ∈ utf8 [c] := by
                rw [← List.mem_reverse, he]
                exact List.mem_cons_self
              by_cases hba : b.toNat < 0x80
              · have := (mem_utf8_ascii b hba [c]).1 hm
                rw [List.mem_singleton] at this
                rw [this]
                exact hs'
              · by_contra hx
                exact hba (nimSpace_ascii b (by simpa using hx))
            rw [List.cons_append, List.dropWhile_cons, if_neg (by rw [hb]; simp)]
        rw [hr, List.singleton_append, List.dropWhile_cons, if_neg hs]
        simp [utf8_append]

theorem savedField_utf8 (d : Dialect) (f : List Char) : savedField d (utf8 f) = utf8 (savedField d f) := by
  unfold savedField
  dsimp only
  split <;> split
  · exact stripTrailing_utf8 f
  · rfl
  · rw [stripTrailing_utf8, escapeBlanks_utf8]
  · exact escapeBlanks_utf8 f

theorem saveField_sim (d : Dialect) (s : CsvSt) : Sim (saveField d (encSt s)) (saveField d s) := by
  intro b hb
  unfold saveField at hb ⊢
  have e : (encSt s).numeric = s.numeric := rfl
  rw [e] at hb
  split at hb
  · exact absurd hb (by simp)
  · rename_i h
    rw [if_neg h]
    refine ⟨_, rfl, ?_⟩
    rw [Except.ok.injEq] at hb
    rw [← hb]
    unfold encSt
    simp only [savedField_utf8, List.map_append, List.map_cons, List.map_nil]
    rfl

theorem save_sim (d : Dialect) (s : CsvSt) (st : CsvState) :
    Sim (do .ok { (← saveField d (encSt s)) with state := st }) (do .ok { (← saveField d s) with state := st }) :=
  Sim.bind (saveField_sim d s) _ _ fun s => Sim.ok { s with state := st }

theorem add_sim (s : CsvSt) (c : Char) (hc : c.toNat < 0x80) (st : CsvState) :
    Sim (do .ok { (← addChar (encSt s) c) with state := st }) (do .ok { (← addChar s c) with state := st }) :=
  Sim.bind (addChar_sim s c hc) _ _ fun s => Sim.ok { s with state := st }

/-- one byte of ASCII, or the end of a line -/
theorem step_sim (d : Dialect) (s : CsvSt) (ch : Option Char) (hch : ∀ c, ch = some c → c.toNat < 0x80) : Sim (processChar d (encSt s) ch) (processChar d s ch) := by
  have hst : (encSt s).state = s.state := rfl
  have hstart : Sim (procStart d (encSt s) ch) (procStart d s ch) := by
    unfold procStart
    cases ch with
    | none => exact Sim.ok s
    | some c =>
      have hc := hch c rfl
      dsimp only
      split
      · exact save_sim d s _
      · split
        · exact Sim.ok { s with state := .inQuotedField }
        · split
          · exact Sim.ok { s with state := .escapedChar }
          · split
            · exact Sim.ok { s with state := .startField }
            · split
              · exact save_sim d s _
              · exact add_sim { s with numeric := s.numeric || d.quoting == .nonnumeric } c hc _
  have hfield : Sim (procInField d (encSt s) ch) (procInField d s ch) := by
    unfold procInField
    cases ch with
    | none =>
      dsimp only
      rw [hst]
      split
      · exact Sim.ok s
      · exact save_sim d s _
    | some c =>
      have hc := hch c rfl
      dsimp only
      split
      · exact save_sim d s _
      · split
        · exact Sim.ok { s with state := .escapedChar }
        · split
          · exact save_sim d s _
          · exact addChar_sim s c hc
  have hget : (ch.getD '\n').toNat < 0x80 := by
    cases ch with
    | none => decide
    | some c => exact hch c rfl
  have hget0 : (ch.getD '\x00').toNat < 0x80 := by
    cases ch with
    | none => decide
    | some c => exact hch c rfl
  unfold processChar
  rw [hst]
  cases s.state with
  | startRecord => exact hstart
  | startField => exact hstart
  | escapedChar =>
    dsimp only
    unfold procEscaped
    apply Sim.bind
    · unfold addNewline
      cases ch with
      | none => exact Sim.ok s
      | some c =>
        dsimp only
        split
        · exact addChar_sim s c (hch c rfl)
        · exact Sim.ok s
    · intro s
      exact add_sim s _ hget _
  | inField => exact hfield
  | afterEscapedCrnl => exact hfield
  | inQuotedField =>
    dsimp only
    unfold procQuoted
    cases ch with
    | none => exact Sim.ok s
    | some c =>
      have hc := hch c rfl
      dsimp only
      split
      · exact Sim.ok { s with state := .escapeInQuotedField }
      · split
        · exact Sim.ok { s with state := _ }
        · exact addChar_sim s c hc
  | escapeInQuotedField =>
    dsimp only
    exact add_sim s _ hget _
  | quoteInQuotedField =>
    dsimp only
    unfold procQuoteQuoted
    dsimp only
    split
    · exact add_sim s _ hget0 _
    · split
      · exact save_sim d s _
      · split
        · exact save_sim d s _
        · split
          · exact add_sim s _ hget0 _
          · exact Sim.error _ _
  | eatCrnl =>
    dsimp only
    unfold procEat
    cases ch with
    | none => exact Sim.ok { s with state := .startRecord }
    | some c =>
      dsimp only
      split
      · exact Sim.ok s
      · exact Sim.error _ _

/-- the state in which a character beyond ASCII is added; `none`: it is refused -/
def hiPrep (d : Dialect) (s : CsvSt) : Option CsvSt :=
  match s.state with
  | .startRecord | .startField => some { s with state := .inField, numeric := s.numeric || d.quoting == .nonnumeric }
  | .escapedChar => some { s with state := .inField }
  | .inField | .afterEscapedCrnl | .inQuotedField => some s
  | .escapeInQuotedField => some { s with state := .inQuotedField }
  | .quoteInQuotedField => if d.strict then none else some { s with state := .inField }
  | .eatCrnl => none

/-- a character beyond ASCII is never special -/
theorem step_high (d : Dialect) (hd : AsciiDialect d) (s : CsvSt) (c : Char) (hc : 0x80 ≤ c.toNat) :
    processChar d s (some c) = (hiPrep d s).elim (.error .other) fun s' => addChar s' c := by
  have hne : ∀ a : Char, a.toNat < 0x80 → (c == a) = false := by
    intro a ha
    rw [beq_eq_false_iff_ne]
    rintro rfl
    omega
  have hcr : isCrnl c = false := by
    unfold isCrnl
    rw [hne _ (by decide), hne _ (by decide)]
    rfl
  have h1 := hne _ hd.1
  have h2 := hne _ hd.2.1
  have h3 := hne _ hd.2.2
  have h4 := hne ' ' (by decide)
  have hadd : ∀ (s : CsvSt) (st : CsvState), (do .ok { (← addChar s c) with state := st } : Except Err CsvSt) = addChar { s with state := st } c := by
    intro s st
    unfold addChar
    dsimp only [bind, Except.bind]
    by_cases h : s.field.length ≥ fieldLimit
    · rw [if_pos h, if_pos h]
    · rw [if_neg h, if_neg h]
  unfold processChar hiPrep
  cases hs : s.state with
  | startRecord =>
    dsimp only
    unfold procStart
    simp only [hcr, h1, h2, h3, h4, Bool.false_and, Bool.false_eq_true, if_false]
    exact hadd _ _
  | startField =>
    dsimp only
    unfold procStart
    simp only [hcr, h1, h2, h3, h4, Bool.false_and, Bool.false_eq_true, if_false]
    exact hadd _ _
  | escapedChar =>
    dsimp only
    unfold procEscaped addNewline
    simp only [hcr, Bool.false_eq_true, if_false]
    exact hadd _ _
  | inField =>
    dsimp only
    unfold procInField
    simp only [hcr, h1, h3, Bool.false_eq_true, if_false]
    rfl
  | afterEscapedCrnl =>
    dsimp only
    unfold procInField
    simp only [hcr, h1, h3, Bool.false_eq_true, if_false]
    rfl
  | inQuotedField =>
    dsimp only
    unfold procQuoted
    simp only [h2, h3, Bool.false_and, Bool.false_eq_true, if_false]
    rfl
  | escapeInQuotedField =>
    dsimp only
    unfold procEscapeQuoted
    exact hadd _ _
  | quoteInQuotedField =>
    dsimp only
    unfold procQuoteQuoted
    simp only [Option.getD_some, hcr, h1, h2, Bool.and_false, Bool.false_eq_true, if_false, Option.isNone_some, Bool.or_self]
    cases d.strict with
    | true => rfl
    | false => exact hadd _ _
  | eatCrnl =>
    dsimp only
    unfold procEat
    simp only [hcr, Bool.false_eq_true, if_false]
    rfl

theorem addChar_room {s b : CsvSt} {c : Char} (h : addChar s c = .ok b) : b = { s with field := s.field ++ [c] } ∧ s.field.length < fieldLimit := by
  unfold addChar at h
  split at h
  · exact absurd h (by simp)
  · rw [Except.ok.injEq] at h
    exact ⟨h.symm, by omega⟩

theorem hiPrep_stable (d : Dialect) (s s' : CsvSt) (f : List Char) (h : hiPrep d s = some s') : hiPrep d { s' with field := f } = some { s' with field := f } := by
  unfold hiPrep at h
  split at h
  · rw [Option.some.injEq] at h; rw [← h]; rfl
  · rw [Option.some.injEq] at h; rw [← h]; rfl
  · rw [Option.some.injEq] at h; rw [← h]; rfl
  · rename_i e
    rw [Option.some.injEq] at h; subst h
    unfold hiPrep
    dsimp only
    rw [e]
  · rename_i e
    rw [Option.some.injEq] at h; subst h
    unfold hiPrep
    dsimp only
    rw [e]
  · rename_i e
    rw [Option.some.injEq] at h; subst h
    unfold hiPrep
    dsimp only
    rw [e]
  · rw [Option.some.injEq] at h; rw [← h]; rfl
  · split at h
    · exact absurd h (by simp)
    · rw [Option.some.injEq] at h; rw [← h]; rfl
  · exact absurd h (by simp)

/-- bytes beyond ASCII are appended one by one -/
theorem fold_high (d : Dialect) (hd : AsciiDialect d) : ∀ (l : List Char), (∀ b ∈ l, 0x80 ≤ b.toNat) → l ≠ [] → ∀ (s b : CsvSt),
    l.foldlM (fun s c => processChar d s (some c)) s = .ok b → ∃ s', hiPrep d s = some s' ∧ s.field = s'.field ∧ s.fields = s'.fields ∧ s'.field.length + l.length ≤ fieldLimit ∧ b = { s' with field := s'.field ++ l } := by
  intro l
  induction l with
  | nil => intro _ h; exact absurd rfl h
  | cons c l ih =>
    intro hl _ s b h
    rw [List.foldlM_cons, step_high d hd s c (hl c List.mem_cons_self)] at h
    obtain ⟨s1, h1, h2⟩ := bind_ok h
    cases hp : hiPrep d s with
    | none =>
      rw [hp] at h1
      exact absurd h1 (by simp)
    | some s' =>
      rw [hp] at h1
      obtain ⟨e1, e2⟩ := addChar_room h1
      have hf : s.field = s'.field ∧ s.fields = s'.fields := by
        unfold hiPrep at hp
        repeat' split at hp
        all_goals first
          | (rw [Option.some.injEq] at hp; subst hp; exact ⟨rfl, rfl⟩)
          | exact absurd hp (by simp)
      refine ⟨s', rfl, hf.1, hf.2, ?_⟩
      cases l with
      | nil =>
        refine ⟨e2, ?_⟩
        have h2' : Except.ok s1 = (Except.ok b : Except Err CsvSt) := h2
        rw [Except.ok.injEq] at h2'
        rw [← h2', e1]
      | cons c2 l =>
        obtain ⟨s2, g1, -, -, g3, g2⟩ := ih (fun b hb => hl b (List.mem_cons_of_mem _ hb)) (by simp) s1 b h2
        rw [e1, hiPrep_stable d s s' _ hp, Option.some.injEq] at g1
        rw [← g1] at g3
        simp only [List.length_append, List.length_cons, List.length_nil] at g3
        refine ⟨?_, ?_⟩
        · simp only [List.length_cons]
          omega
        · rw [g2, ← g1]
          simp

/-- one character in bytes -/
theorem char_sim (d : Dialect) (hd : AsciiDialect d) (s : CsvSt) (c : Char) :
    Sim ((utf8Of c.toNat).foldlM (fun s c => processChar d s (some c)) (encSt s)) (processChar d s (some c)) := by
  by_cases hc : c.toNat < 0x80
  · rw [utf8Of_ascii c hc]
    have e : ([c].foldlM (fun s c => processChar d s (some c)) (encSt s) : Except Err CsvSt) = processChar d (encSt s) (some c) := by
      rw [List.foldlM_cons]
      cases processChar d (encSt s) (some c) <;> rfl
    rw [e]
    exact step_sim d s (some c) fun x hx => by
      rw [Option.some.injEq] at hx
      rw [← hx]
      exact hc
  · intro b hb
    obtain ⟨s', h1, -, -, h2, h3⟩ := fold_high d hd _ (utf8Of_high c.toNat (char_le c) (by omega)) (utf8Of_ne_nil _) _ b hb
    rw [step_high d hd s c (by omega)]
    have h4 : (hiPrep d s).map encSt = some s' := by
      rw [← h1]
      unfold hiPrep
      have : (encSt s).state = s.state := rfl
      rw [this]
      cases s.state with
      | quoteInQuotedField => cases d.strict <;> rfl
      | _ => rfl
    cases hp : hiPrep d s with
    | none =>
      rw [hp] at h4
      exact absurd h4 (by simp)
    | some s2 =>
      rw [hp, Option.map_some, Option.some.injEq] at h4
      have hl := length_le_utf8 s2.field
      have h2' : (utf8 s2.field).length < fieldLimit := by
        rw [← h4] at h2
        have := List.length_pos_iff.2 (utf8Of_ne_nil c.toNat)
        have h5 : (utf8 s2.field).length + (utf8Of c.toNat).length ≤ fieldLimit := h2
        omega
      refine ⟨{ s2 with field := s2.field ++ [c] }, ?_, ?_⟩
      · show addChar s2 c = _
        unfold addChar
        rw [if_neg (by omega)]
      · rw [h3, ← h4]
        unfold encSt
        dsimp only
        rw [utf8_append]
        have : utf8 [c] = utf8Of c.toNat := List.append_nil _
        rw [this]

theorem fold_sim (d : Dialect) (hd : AsciiDialect d) : ∀ (l : List Char) (s : CsvSt),
    Sim ((utf8 l).foldlM (fun s c => processChar d s (some c)) (encSt s)) (l.foldlM (fun s c => processChar d s (some c)) s) := by
  intro l
  induction l with
  | nil => intro s; exact Sim.ok s
  | cons c l ih =>
    intro s
    have e : utf8 (c :: l) = utf8Of c.toNat ++ utf8 l := rfl
    rw [e, List.foldlM_append, List.foldlM_cons]
    exact Sim.bind (char_sim d hd s c) _ _ fun s => ih s

theorem feedLine_sim (d : Dialect) (hd : AsciiDialect d) (s : CsvSt) (l : List Char) : Sim (feedLine d (encSt s) (utf8 l)) (feedLine d s l) := by
  unfold feedLine
  have e : utf8 l ++ ['\n'] = utf8 (l ++ ['\n']) := by
    rw [utf8_append, utf8_single '\n' (by decide)]
  rw [e]
  exact Sim.bind (fold_sim d hd _ s) _ _ fun s => step_sim d s none fun c hc => absurd hc (by simp)

theorem parseLines_sim (d : Dialect) (hd : AsciiDialect d) : ∀ (ls : List (List Char)) (s : CsvSt) (r : List (List (List Char))),
    parseLines d (encSt s) (ls.map utf8) = .ok r → ∃ r', parseLines d s ls = .ok r' ∧ r = r'.map (·.map utf8) := by
  intro ls
  induction ls with
  | nil =>
    intro s r h
    have e : (Except.ok [] : Except Err (List (List (List Char)))) = .ok r := h
    rw [Except.ok.injEq] at e
    exact ⟨[], rfl, e.symm⟩
  | cons l ls ih =>
    intro s r h
    rw [List.map_cons, parseLines_cons] at h
    rw [parseLines_cons]
    obtain ⟨b, h1, h2⟩ := bind_ok h
    obtain ⟨s1, h3, rfl⟩ := feedLine_sim d hd s l b h1
    rw [h3]
    dsimp only [bind, Except.bind] at h2 ⊢
    have hst : (encSt s1).state = s1.state := rfl
    rw [hst] at h2
    by_cases hs : s1.state = .startRecord
    · rw [if_pos hs] at h2 ⊢
      have e : ({ state := s1.state, field := (encSt s1).field, numeric := (encSt s1).numeric } : CsvSt) = encSt { s1 with fields := [] } := rfl
      rw [e] at h2
      cases hm : parseLines d (encSt { s1 with fields := [] }) (ls.map utf8) with
      | error x => rw [hm] at h2; exact absurd h2 (by simp)
      | ok m =>
        rw [hm] at h2
        obtain ⟨m', h4, rfl⟩ := ih _ m hm
        rw [h4]
        dsimp only at h2 ⊢
        rw [Except.ok.injEq] at h2
        exact ⟨_, rfl, h2.symm⟩
    · rw [if_neg hs] at h2 ⊢
      exact ih s1 r h2

theorem recordOffsets_sim (d : Dialect) (hd : AsciiDialect d) : ∀ (ls : List (List Char)) (s : CsvSt) (n : Nat) (r : List Nat),
    recordOffsets d (encSt s) n (ls.map utf8) = .ok r → recordOffsets d s n ls = .ok r := by
  intro ls
  induction ls with
  | nil => intro s n r h; exact h
  | cons l ls ih =>
    intro s n r h
    rw [List.map_cons] at h
    unfold recordOffsets at h ⊢
    obtain ⟨b, h1, h2⟩ := bind_ok h
    obtain ⟨s1, h3, rfl⟩ := feedLine_sim d hd s l b h1
    rw [h3]
    dsimp only [bind, Except.bind] at h2 ⊢
    have hst : (encSt s1).state = s1.state := rfl
    rw [hst] at h2
    by_cases hs : s1.state = .startRecord
    · rw [if_pos hs] at h2 ⊢
      have e : ({ state := s1.state, field := (encSt s1).field, numeric := (encSt s1).numeric } : CsvSt) = encSt { s1 with fields := [] } := rfl
      rw [e] at h2
      cases hm : recordOffsets d (encSt { s1 with fields := [] }) (n + 1) (ls.map utf8) with
      | error x => rw [hm] at h2; exact absurd h2 (by simp)
      | ok m =>
        rw [hm] at h2
        rw [ih _ _ m hm]
        exact h2
    · rw [if_neg hs] at h2 ⊢
      exact ih s1 _ r h2

/-! ## the import on bytes -/

/-- a table of texts, in bytes -/
def encTable (t : List (List Char × List (List (List Char)))) : List (List Char × List (List (List Char))) :=
  t.map fun c => (utf8 c.1, c.2.map (·.map utf8))

theorem stripEscape_append_high (c : Char) (hc : c ≠ '\\' ∧ c ≠ '\t' ∧ c ≠ '\n' ∧ c ≠ '\r') (x : List Char) : stripEscape (c :: x) = c :: stripEscape x := by
  obtain ⟨h1, h2, h3, h4⟩ := hc
  cases x with
  | nil => simp [stripEscape, h2, h3, h4]
  | cons e r => simp [stripEscape, h1, h2, h3, h4]

theorem stripEscape_utf8 (t : List Char) : stripEscape (utf8 t) = utf8 (stripEscape t) := by
  generalize hn : t.length = n
  induction n using Nat.strongRecOn generalizing t with
  | _ n ih =>
    have hhigh : ∀ (l x : List Char), (∀ b ∈ l, 0x80 ≤ b.toNat) → stripEscape (l ++ x) = l ++ stripEscape x := by
      intro l x
      induction l with
      | nil => intro _; rfl
      | cons b l ihl =>
        intro h
        have hb := h b List.mem_cons_self
        rw [List.cons_append, stripEscape_append_high b ?_, ihl fun y hy => h y (List.mem_cons_of_mem _ hy)]
        · rfl
        · refine ⟨?_, ?_, ?_, ?_⟩ <;> (rintro rfl; exact absurd hb (by decide))
    cases t with
    | nil => rfl
    | cons c t =>
      have hlt : t.length < n := by
        rw [← hn, List.length_cons]
        omega
      have e : utf8 (c :: t) = utf8Of c.toNat ++ utf8 t := rfl
      have e1 : ∀ x, utf8 (c :: x) = utf8Of c.toNat ++ utf8 x := fun x => rfl
      by_cases hc : c.toNat < 0x80
      · rw [e, utf8Of_ascii c hc, List.singleton_append]
        by_cases hb : c = '\\'
        · subst hb
          cases t with
          | nil => decide
          | cons f t =>
            have e2 : utf8 (f :: t) = utf8Of f.toNat ++ utf8 t := rfl
            by_cases hf : f = 't' ∨ f = 'n' ∨ f = 'r'
            · have hfa : f.toNat < 0x80 := by
                rcases hf with hf | hf | hf <;> (rw [hf]; decide)
              rw [e2, utf8Of_ascii f hfa, List.singleton_append]
              have e3 : ∀ x, stripEscape ('\\' :: f :: x) = stripEscape x := by
                intro x
                rw [stripEscape, if_pos ⟨rfl, hf⟩]
              rw [e3, e3]
              refine ih t.length ?_ t rfl
              rw [← hn, List.length_cons, List.length_cons]
              omega
            · have e3 : stripEscape ('\\' :: f :: t) = '\\' :: stripEscape (f :: t) := by
                rw [stripEscape, if_neg (fun h => hf h.2), if_neg (by decide)]
              have e4 : stripEscape ('\\' :: utf8 (f :: t)) = '\\' :: stripEscape (utf8 (f :: t)) := by
                cases hu : utf8 (f :: t) with
                | nil => exact absurd ((utf8_nil_iff _).1 hu) (by simp)
                | cons g r =>
                  rw [stripEscape, if_neg ?_, if_neg (by decide)]
                  rintro ⟨-, hg⟩
                  have hga : g.toNat < 0x80 := by
                    rcases hg with hg | hg | hg <;> (rw [hg]; decide)
                  rw [e2] at hu
                  by_cases hfa : f.toNat < 0x80
                  · rw [utf8Of_ascii f hfa, List.singleton_append, List.cons.injEq] at hu
                    rw [← hu.1] at hg
                    exact hf hg
                  · have := utf8Of_high f.toNat (char_le f) (by omega)
                    cases hw : utf8Of f.toNat with
                    | nil => exact absurd hw (utf8Of_ne_nil _)
                    | cons w ws =>
                      rw [hw, List.cons_append, List.cons.injEq] at hu
                      have := this w (by rw [hw]; exact List.mem_cons_self)
                      rw [hu.1] at this
                      omega
              rw [e4, e3, ih _ hlt (f :: t) rfl, e1, utf8Of_ascii '\\' (by decide), List.singleton_append]
        · by_cases hw : c = '\t' ∨ c = '\n' ∨ c = '\r'
          · have e3 : ∀ x, stripEscape (c :: x) = stripEscape x := by
              intro x
              cases x with
              | nil => simp [stripEscape, hw]
              | cons f x => rw [stripEscape, if_neg (fun h => hb h.1), if_pos hw]
            rw [e3, e3]
            exact ih _ hlt t rfl
          · push Not at hw
            rw [stripEscape_append_high c ⟨hb, hw⟩, stripEscape_append_high c ⟨hb, hw⟩, ih _ hlt t rfl, e1, utf8Of_ascii c hc, List.singleton_append]
      · rw [e, hhigh _ _ (utf8Of_high c.toNat (char_le c) (by omega)), ih _ hlt t rfl, stripEscape_append_high c ?_ t, e1]
        refine ⟨?_, ?_, ?_, ?_⟩ <;> (rintro rfl; exact hc (by decide))

theorem uniqueName_utf8 (mk mkB : List Char → Nat → List Char) (hmk : ∀ n i, mkB (utf8 n) i = utf8 (mk n i)) (n : List Char) (names : List (List Char)) :
    uniqueName mkB (utf8 n) (names.map utf8) = utf8 (uniqueName mk n names) := by
  have hloop : ∀ (fuel i : Nat), uniqueNameLoop (mkB (utf8 n)) (names.map utf8) fuel i = utf8 (uniqueNameLoop (mk n) names fuel i) := by
    intro fuel
    induction fuel with
    | zero => intro i; exact hmk n i
    | succ fuel ih =>
      intro i
      unfold uniqueNameLoop
      rw [hmk]
      by_cases h : mk n i ∈ names
      · rw [if_pos h, if_pos ((mem_map_utf8 _ _).2 h)]
        exact ih (i + 1)
      · rw [if_neg h, if_neg fun h' => h ((mem_map_utf8 _ _).1 h')]
  unfold uniqueName
  by_cases h : n ∈ names
  · rw [if_pos h, if_pos ((mem_map_utf8 _ _).2 h), List.length_map]
    exact hloop _ _
  · rw [if_neg h, if_neg fun h' => h ((mem_map_utf8 _ _).1 h')]

theorem uniqueNames_utf8 (mk mkB : List Char → Nat → List Char) (hmk : ∀ n i, mkB (utf8 n) i = utf8 (mk n i)) (names : List (List Char)) :
    uniqueNames mkB (names.map utf8) = (uniqueNames mk names).map utf8 := by
  unfold uniqueNames
  have h : ∀ (l acc : List (List Char)), (l.map utf8).foldl (fun fs n => fs ++ [uniqueName mkB n fs]) (acc.map utf8) =
      (l.foldl (fun fs n => fs ++ [uniqueName mk n fs]) acc).map utf8 := by
    intro l
    induction l with
    | nil => intro acc; rfl
    | cons n l ih =>
      intro acc
      rw [List.map_cons, List.foldl_cons, List.foldl_cons, ← ih, uniqueName_utf8 mk mkB hmk, List.map_append]
      rfl
  exact h names []

theorem checkSkip_utf8 (skip : Option Bool) (r : List (List Char)) : checkSkip skip (r.map utf8) = checkSkip skip r := by
  have he : ∀ t : List Char, (utf8 t).isEmpty = t.isEmpty := by
    intro t
    rw [Bool.eq_iff_iff, List.isEmpty_iff, List.isEmpty_iff, utf8_nil_iff]
  unfold checkSkip
  cases skip with
  | none => rfl
  | some b => cases b <;> simp [List.all_map, List.any_map, Function.comp_def, he]

theorem pageLoop_utf8 (skip : Option Bool) (count : Nat) : ∀ (recs : List (List (List Char))) (i : Nat),
    pageLoop skip count i (recs.map (·.map utf8)) = (pageLoop skip count i recs).map (·.map utf8) := by
  intro recs
  induction recs with
  | nil => intro i; rfl
  | cons r recs ih =>
    intro i
    rw [List.map_cons]
    unfold pageLoop
    rw [checkSkip_utf8, ih]
    split
    · rfl
    · split <;> rfl

theorem getD_map_utf8 (l : List (List Char)) (i : Nat) : (l.map utf8).getD i [] = utf8 (l.getD i []) := by
  rw [List.getD_eq_getElem?_getD, List.getD_eq_getElem?_getD, List.getElem?_map]
  cases l[i]? <;> rfl

theorem importRow_utf8 (fields : List Nat) (r : List (List Char)) : importRow fields (r.map utf8) = (importRow fields r).map utf8 := by
  unfold importRow
  dsimp only
  rw [List.map_append, List.map_map, List.length_map, List.map_replicate, List.length_map, List.length_map]
  congr 1
  exact List.map_congr_left fun i _ => getD_map_utf8 r i

theorem task_sim (d : Dialect) (hd : AsciiDialect d) (lines : List (List Char)) (skip : Option Bool) (fields : List Nat) (off count : Nat)
    (r : List (List (List Char))) (h : textReaderTask d (lines.map utf8) skip fields off count = .ok r) :
    ∃ r', textReaderTask d lines skip fields off count = .ok r' ∧ r = r'.map (·.map utf8) := by
  unfold textReaderTask at h ⊢
  obtain ⟨recs, h1, h2⟩ := bind_ok h
  rw [← List.map_drop] at h1
  obtain ⟨recs', h3, rfl⟩ := parseLines_sim d hd _ {} recs h1
  rw [h3]
  rw [Except.ok.injEq] at h2
  refine ⟨_, rfl, ?_⟩
  rw [← h2, pageLoop_utf8, List.map_map, List.map_map]
  refine List.map_congr_left fun j _ => ?_
  dsimp only [Function.comp]
  rw [List.map_map, List.map_map, List.map_map]
  refine List.map_congr_left fun row _ => ?_
  dsimp only [Function.comp]
  rw [importRow_utf8, getD_map_utf8]

theorem mapM_sim {α β : Type} (f g : α → Except Err β) (e : β → β) (h : ∀ a b, f a = .ok b → ∃ b', g a = .ok b' ∧ b = e b') : ∀ (l : List α) (r : List β),
    l.mapM f = .ok r → ∃ r', l.mapM g = .ok r' ∧ r = r'.map e := by
  intro l
  induction l with
  | nil =>
    intro r hr
    rw [List.mapM_nil] at hr
    have e : (Except.ok [] : Except Err (List β)) = .ok r := hr
    rw [Except.ok.injEq] at e
    exact ⟨[], rfl, e.symm⟩
  | cons a l ih =>
    intro r hr
    rw [List.mapM_cons] at hr
    obtain ⟨b, h1, h2⟩ := bind_ok hr
    obtain ⟨bs, h3, h4⟩ := bind_ok h2
    obtain ⟨b', g1, rfl⟩ := h a b h1
    obtain ⟨bs', g2, rfl⟩ := ih bs h3
    have h5 : (Except.ok (e b' :: bs'.map e) : Except Err (List β)) = .ok r := h4
    rw [Except.ok.injEq] at h5
    refine ⟨b' :: bs', ?_, h5.symm⟩
    rw [List.mapM_cons, g1, g2]
    rfl

/-- options in bytes -/
def encOpts (o : ImportOpts) : ImportOpts := { o with columns := o.columns.map (·.map utf8) }

/-- **C98 (import)** A UTF-8 file is imported as the UTF-8 of what the characters give: separators, qualifiers, escapes and line ends are never found inside a
character, names are told apart and numbered as texts, columns are chosen by name, empty means empty.  (`num`, `mk`: the number and the name with a number, in bytes.) -/
theorem C98_import (mk mkB : List Char → Nat → List Char) (num numB : Nat → List Char) (hmk : ∀ n i, mkB (utf8 n) i = utf8 (mk n i)) (hnum : ∀ i, numB i = utf8 (num i))
    (d : Dialect) (hd : AsciiDialect d) (o : ImportOpts) (pageSize : Nat) (lines : List (List Char)) (t : List (List Char × List (List (List Char))))
    (h : importText mkB numB d (encOpts o) pageSize (lines.map utf8) = .ok t) :
    ∃ t', importText mk num d o pageSize lines = .ok t' ∧ t = encTable t' := by
  unfold importText at h ⊢
  obtain ⟨offsets, h1, h2⟩ := bind_ok h
  have hoff : findNewlines d lines = .ok offsets := by
    unfold findNewlines at h1 ⊢
    rw [List.length_map] at h1
    split at h1
    · rename_i hq
      rw [if_pos hq]
      exact h1
    · rename_i hq
      rw [if_neg hq]
      obtain ⟨r, h3, h4⟩ := bind_ok h1
      rw [recordOffsets_sim d hd lines {} 0 r h3]
      exact h4
  rw [hoff]
  dsimp only [bind, Except.bind] at h2 ⊢
  have eo : (encOpts o).headerRow = o.headerRow ∧ (encOpts o).headers = o.headers ∧ (encOpts o).start = o.start ∧ (encOpts o).limit = o.limit ∧ (encOpts o).skip = o.skip :=
    ⟨rfl, rfl, rfl, rfl, rfl⟩
  rw [eo.1, eo.2.1, eo.2.2.1, eo.2.2.2.1, eo.2.2.2.2] at h2
  by_cases hrow : 0 < offsets.length - 1 ∧ o.headerRow < offsets.length - 1
  case neg =>
    rw [if_neg hrow] at h2
    exact absurd h2 (by simp)
  rw [if_pos hrow] at h2 ⊢
  cases hc : readColumns d (lines.map utf8) (offsets.getD o.headerRow 0) with
  | error e => rw [hc] at h2; exact absurd h2 (by simp)
  | ok first =>
    rw [hc] at h2
    have hfirst : ∃ first', readColumns d lines (offsets.getD o.headerRow 0) = .ok first' ∧ first = first'.map utf8 := by
      unfold readColumns at hc ⊢
      obtain ⟨recs, h3, h4⟩ := bind_ok hc
      rw [← List.map_drop] at h3
      obtain ⟨recs', h5, rfl⟩ := parseLines_sim d hd _ {} recs h3
      rw [h5]
      rw [Except.ok.injEq] at h4
      refine ⟨_, rfl, ?_⟩
      rw [← h4]
      have : (recs'.map fun x => x.map utf8).headD [] = (recs'.headD []).map utf8 := by cases recs' <;> rfl
      rw [this, List.map_map, List.map_map]
      exact List.map_congr_left fun x _ => stripEscape_utf8 x
    obtain ⟨first', hf1, rfl⟩ := hfirst
    rw [hf1]
    dsimp only at h2 ⊢
    have hnames : fieldNames mkB numB o.headers (first'.map utf8) = (fieldNames mk num o.headers first').map utf8 := by
      unfold fieldNames
      split
      · exact uniqueNames_utf8 mk mkB hmk first'
      · rw [List.length_map, List.map_map]
        exact List.map_congr_left fun i _ => hnum i
    rw [hnames] at h2
    generalize fieldNames mk num o.headers first' = names at h2 ⊢
    have hcols : (encOpts o).columns.getD (names.map utf8) = (o.columns.getD names).map utf8 := by
      unfold encOpts
      cases o.columns <;> rfl
    rw [hcols] at h2
    generalize o.columns.getD names = cols at h2 ⊢
    have hall : (cols.map utf8).all (fun c => decide (c ∈ names.map utf8)) = cols.all fun c => decide (c ∈ names) := by
      rw [List.all_map]
      congr 1
      funext c
      exact decide_eq_decide.2 (mem_map_utf8 c names)
    rw [hall] at h2
    by_cases hin : cols.all (fun c => decide (c ∈ names)) = true
    case neg =>
      rw [if_neg hin] at h2
      exact absurd h2 (by simp)
    rw [if_pos hin] at h2 ⊢
    have hfields : ((List.range (names.map utf8).length).filter fun i => decide ((names.map utf8).getD i [] ∈ cols.map utf8)) =
        (List.range names.length).filter fun i => decide (names.getD i [] ∈ cols) := by
      rw [List.length_map]
      refine List.filter_congr fun i _ => ?_
      rw [getD_map_utf8]
      exact decide_eq_decide.2 (mem_map_utf8 _ cols)
    rw [hfields] at h2
    generalize (List.range names.length).filter (fun i => decide (names.getD i [] ∈ cols)) = fields at h2 ⊢
    generalize List.map (fun t => (offsets.getD t.1 0, t.2)) (planTasks pageSize (lastRow o.limit (offsets.length - 1) (o.start + ((if o.headers = true then 1 else 0) + o.headerRow)))
      (o.start + ((if o.headers = true then 1 else 0) + o.headerRow))) = tasks at h2 ⊢
    cases hm : tasks.mapM (fun t => textReaderTask d (lines.map utf8) o.skip fields t.1 t.2) with
    | error e => rw [hm] at h2; exact absurd h2 (by simp)
    | ok res =>
      rw [hm] at h2
      obtain ⟨res', h3, rfl⟩ := mapM_sim _ (fun t => textReaderTask d lines o.skip fields t.1 t.2) (fun r => r.map (·.map utf8))
        (fun a b hab => task_sim d hd lines o.skip fields a.1 a.2 b hab) tasks res hm
      rw [h3]
      dsimp only at h2 ⊢
      rw [Except.ok.injEq] at h2
      refine ⟨_, rfl, ?_⟩
      rw [← h2, uniqueNames_utf8 mk mkB hmk]
      have hdict : ((List.range fields.length).map fun j => ((names.map utf8).getD (fields.getD j 0) [], (res'.map fun r => r.map fun x => x.map utf8).map fun pages => pages.getD j [])) =
          encTable ((List.range fields.length).map fun j => (names.getD (fields.getD j 0) [], res'.map fun pages => pages.getD j [])) := by
        unfold encTable
        rw [List.map_map]
        refine List.map_congr_left fun j _ => ?_
        dsimp only [Function.comp]
        rw [getD_map_utf8, List.map_map, List.map_map]
        congr 1
        refine List.map_congr_left fun pages _ => ?_
        dsimp only [Function.comp]
        rw [List.getD_eq_getElem?_getD, List.getD_eq_getElem?_getD, List.getElem?_map]
        cases pages[j]? <;> rfl
      rw [hdict]
      generalize ((List.range fields.length).map fun j => (names.getD (fields.getD j 0) [], res'.map fun pages => pages.getD j [])) = dict
      have hfind : ∀ c : List Char, ((encTable dict).find? fun p => decide (p.1 = utf8 c)).elim [] (·.2) =
          ((dict.find? fun p => decide (p.1 = c)).elim [] (·.2)).map (·.map utf8) := by
        intro c
        unfold encTable
        rw [List.find?_map]
        have : ((fun p : List Char × List (List (List Char)) => decide (p.1 = utf8 c)) ∘ fun c : List Char × List (List (List Char)) => (utf8 c.1, c.2.map (·.map utf8))) =
            fun p => decide (p.1 = c) := by
          funext p
          exact decide_eq_decide.2 ⟨fun h => utf8_inj _ _ h, fun h => by rw [← h]⟩
        rw [this]
        cases dict.find? (fun p => decide (p.1 = c)) <;> rfl
      rw [List.map_map]
      have hmap : cols.map ((fun c => ((encTable dict).find? fun p => decide (p.1 = c)).elim [] (·.2)) ∘ utf8) =
          (cols.map fun c => (dict.find? fun p => decide (p.1 = c)).elim [] (·.2)).map (fun x => x.map (·.map utf8)) := by
        rw [List.map_map]
        exact List.map_congr_left fun c _ => hfind c
      rw [hmap, List.zip_map]
      rfl

/-- **C98 (file)** What is imported from a file in UTF-8, or in UTF-16 if the text has no NUL, is the UTF-8 of what its characters give. -/
theorem C98_file (mk mkB : List Char → Nat → List Char) (num numB : Nat → List Char) (hmk : ∀ n i, mkB (utf8 n) i = utf8 (mk n i)) (hnum : ∀ i, numB i = utf8 (num i))
    (d : Dialect) (hd : AsciiDialect d) (o : ImportOpts) (pageSize : Nat) (text : List Char) (t : List (List Char × List (List (List Char)))) :
    (importFile mkB numB d (encOpts o) pageSize .utf8 (bom8 ++ utf8 text) = .ok t → ∃ t', importText mk num d o pageSize (readLines [] text) = .ok t' ∧ t = encTable t') ∧
    (text.head? ≠ some (Char.ofNat 0xFEFF) → importFile mkB numB d (encOpts o) pageSize .utf8 (utf8 text) = .ok t →
      ∃ t', importText mk num d o pageSize (readLines [] text) = .ok t' ∧ t = encTable t') ∧
    ∀ be, (∀ c ∈ text, c.toNat ≠ 0) → importFile mkB numB d (encOpts o) pageSize .utf16 (file16 be text) = .ok t →
      ∃ t', importText mk num d o pageSize (rawLines text) = .ok t' ∧ t = encTable t' := by
  refine ⟨fun h => ?_, fun hb h => ?_, fun be h0 h => ?_⟩
  · rw [C97_utf8_bom] at h
    exact C98_import mk mkB num numB hmk hnum d hd o pageSize _ t h
  · rw [C97_utf8 _ _ _ _ _ _ hb] at h
    exact C98_import mk mkB num numB hmk hnum d hd o pageSize _ t h
  · rw [C97_utf16 _ _ _ _ _ _ _ h0] at h
    exact C98_import mk mkB num numB hmk hnum d hd o pageSize _ t h

/-- **C98 (records)** The records of a UTF-8 file are the UTF-8 of the records of its characters. -/
theorem C98_records_partial (d : Dialect) (hd : AsciiDialect d) (lines : List (List Char)) (r : List (List (List Char))) (h : parseLines d {} (lines.map utf8) = .ok r) :
    ∃ r', parseLines d {} lines = .ok r' ∧ r = r'.map (·.map utf8) := parseLines_sim d hd lines {} r h

/-- spec: the parser does on bytes what it does on characters -/
def C98_statement : Prop := ∀ (d : Dialect), AsciiDialect d → ∀ lines : List (List Char),
  parseLines d {} (lines.map utf8) = (parseLines d {} lines).map fun r => r.map (·.map utf8)

theorem fold_high_ok (d : Dialect) (hd : AsciiDialect d) : ∀ (l : List Char), (∀ b ∈ l, 0x80 ≤ b.toNat) → ∀ s : CsvSt, s.state = .inField → s.field.length + l.length ≤ fieldLimit →
    l.foldlM (fun s c => processChar d s (some c)) s = .ok { s with field := s.field ++ l } := by
  intro l
  induction l with
  | nil =>
    intro _ s _ _
    rw [List.append_nil]
    rfl
  | cons c l ih =>
    intro hl s hs hlen
    rw [List.length_cons] at hlen
    have hp : hiPrep d s = some s := by
      unfold hiPrep
      rw [hs]
    have ha : addChar s c = .ok { s with field := s.field ++ [c] } := by
      unfold addChar
      rw [if_neg (by omega)]
    rw [List.foldlM_cons, step_high d hd s c (hl c List.mem_cons_self), hp]
    have e : ((some s).elim (Except.error Err.other) fun s' => addChar s' c) = .ok { s with field := s.field ++ [c] } := ha
    rw [e]
    have := ih (fun b hb => hl b (List.mem_cons_of_mem _ hb)) { s with field := s.field ++ [c] } hs (by
      simp only [List.length_append, List.length_cons, List.length_nil]
      omega)
    rw [List.append_assoc] at this
    exact this

/-- a line of letters é is one field -/
theorem parse_letters (n : Nat) (hn : n + 1 ≤ fieldLimit) : ∃ r, parseLines {} {} [List.replicate (n + 1) 'é'] = .ok r := by
  have hd : AsciiDialect {} := ⟨by decide, by decide, by decide⟩
  have hhigh : ∀ b ∈ List.replicate n 'é', 0x80 ≤ b.toNat := by
    intro b hb
    rw [List.eq_of_mem_replicate hb]
    decide
  have hfold : (List.replicate (n + 1) 'é').foldlM (fun s c => processChar {} s (some c)) {} = .ok { state := .inField, field := 'é' :: List.replicate n 'é' } := by
    rw [List.replicate_succ, List.foldlM_cons, step_high {} hd {} 'é' (by decide)]
    exact fold_high_ok {} hd _ hhigh { state := .inField, field := ['é'] } rfl (by
      rw [List.length_replicate, List.length_singleton]
      omega)
  refine ⟨[[escapeBlanks ('é' :: List.replicate n 'é')]], ?_⟩
  rw [parseLines_cons]
  unfold feedLine
  rw [List.foldlM_append, hfold]
  rfl

/-- a line of letters é is refused if it has more bytes than a field may have -/
theorem letters_refused (n : Nat) (hn : fieldLimit < 2 * (n + 1)) (r : List (List (List Char))) : parseLines {} {} [utf8 (List.replicate (n + 1) 'é')] ≠ .ok r := by
  intro h
  have hd : AsciiDialect {} := ⟨by decide, by decide, by decide⟩
  rw [parseLines_cons] at h
  obtain ⟨s1, h1, -⟩ := bind_ok h
  unfold feedLine at h1
  rw [List.foldlM_append] at h1
  obtain ⟨s2, h2, -⟩ := bind_ok h1
  obtain ⟨s3, h3, -⟩ := bind_ok h2
  have hlen : ∀ n, (utf8 (List.replicate n 'é')).length = 2 * n := by
    intro n
    induction n with
    | zero => rfl
    | succ n ih =>
      have e : utf8 (List.replicate (n + 1) 'é') = utf8Of 'é'.toNat ++ utf8 (List.replicate n 'é') := rfl
      have e2 : (utf8Of 'é'.toNat).length = 2 := by decide
      rw [e, List.length_append, ih, e2]
      omega
  have hhigh : ∀ b ∈ utf8 (List.replicate (n + 1) 'é'), 0x80 ≤ b.toNat := by
    intro b hb
    by_contra hx
    have := (mem_utf8_ascii b (by omega) _).1 hb
    rw [List.eq_of_mem_replicate this] at hx
    exact hx (by decide)
  have hne : utf8 (List.replicate (n + 1) 'é') ≠ [] := by
    intro he
    have := hlen (n + 1)
    rw [he, List.length_nil] at this
    omega
  obtain ⟨s', -, -, -, hl, -⟩ := fold_high {} hd _ hhigh hne _ _ h3
  rw [hlen] at hl
  omega

/-- **C98 (limit)** The largest field, 128 × 1024, is counted in bytes: a field of 70000 letters é is refused, though 70000 letters e are not. -/
theorem C98_fails : ¬ C98_statement := by
  intro h
  obtain ⟨r, hr⟩ := parse_letters 69999 (by decide)
  have h := h {} ⟨by decide, by decide, by decide⟩ [List.replicate (69999 + 1) 'é']
  rw [hr] at h
  exact letters_refused 69999 (by decide) _ h

/-- names with numbers, in bytes and in characters -/
example (n : List Char) (i : Nat) : utf8 n ++ '_' :: List.replicate i '1' = utf8 (n ++ '_' :: List.replicate i '1') := by
  have h : ∀ i, utf8 (List.replicate i '1') = List.replicate i '1' := by
    intro i
    induction i with
    | zero => rfl
    | succ i ih =>
      have e : utf8 ('1' :: List.replicate i '1') = utf8Of '1'.toNat ++ utf8 (List.replicate i '1') := rfl
      rw [List.replicate_succ, e, ih]
      rfl
  have e : utf8 ('_' :: List.replicate i '1') = utf8Of '_'.toNat ++ utf8 (List.replicate i '1') := rfl
  rw [utf8_append, e, h]
  rfl

/-- a separator between letters beyond ASCII, and inside quotes -/
example : parseLines { delimiter := ';' } {} ([['é', ';', '"', 'ü', ';', 'ß', '"', ';', '€']].map utf8) = .ok [[utf8 ['é'], utf8 ['ü', ';', 'ß'], utf8 ['€']]] := by decide +kernel

/-- an import chosen by a name beyond ASCII -/
example : (importText (fun n i => n ++ List.replicate i '_') (fun i => List.replicate i '1') {} (encOpts { columns := some [['ü']] }) 2
      ([['é', ',', 'ü'], ['1', ',', '€'], ['2', ',', '4']].map utf8)).toOption = some (encTable [(['ü'], [[['€'], ['4']]])]) := by decide +kernel

end Tablite
