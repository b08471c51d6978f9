import Verif.Props.Utf8

/-!
# C98: exactly when a UTF-8 file is read as its characters: when no field takes more than 128 × 1024 bytes on the way
-/

namespace Tablite

/-- the field under construction fits the limit, in bytes -/
def InBytes (s : CsvSt) : Prop := (utf8 s.field).length ≤ fieldLimit

/-- spec: no field that the characters build up, at any point of any line, takes more than 128 × 1024 bytes in UTF-8 -/
def FieldsFit (d : Dialect) : CsvSt → List (List Char) → Prop
  | _, [] => True
  | s, line :: rest =>
    (∀ p, p <+: line ++ ['\n'] → ∀ s', p.foldlM (fun s c => processChar d s (some c)) s = .ok s' → InBytes s') ∧
    ∀ s', feedLine d s line = .ok s' → InBytes s' ∧ FieldsFit d (if s'.state = .startRecord then { s' with fields := [] } else s') rest

/-- what characters give, bytes give, if the field fits -/
def Cos (x y : Except Err CsvSt) : Prop := ∀ s, y = .ok s → InBytes s → x = .ok (encSt s)

theorem Cos.ok (s : CsvSt) : Cos (.ok (encSt s)) (.ok s) := by
  intro b hb _
  rw [Except.ok.injEq] at hb
  rw [hb]

theorem Cos.error (e : Err) (x : Except Err CsvSt) : Cos x (.error e) := by
  intro b hb
  exact absurd hb (by simp)

theorem Cos.bind {x y : Except Err CsvSt} (h : Cos x y) (f g : CsvSt → Except Err CsvSt) (hf : ∀ s, Cos (f (encSt s)) (g s))
    (hg : ∀ m s', g m = .ok s' → InBytes s' → InBytes m) : Cos (x >>= f) (y >>= g) := by
  intro s hs hb
  obtain ⟨m, hm, h2⟩ := bind_ok hs
  rw [h m hm (hg m s h2 hb)]
  exact hf m s h2 hb

theorem addChar_cos (s : CsvSt) (c : Char) (hc : c.toNat < 0x80) : Cos (addChar (encSt s) c) (addChar s c) := by
  intro b hb hfit
  obtain ⟨rfl, -⟩ := addChar_room hb
  unfold InBytes at hfit
  rw [utf8_append, utf8_single c hc, List.length_append, List.length_singleton] at hfit
  unfold addChar
  have e : (encSt s).field = utf8 s.field := rfl
  rw [e, if_neg (by omega)]
  unfold encSt
  simp only [utf8_append, utf8_single c hc]

theorem saveField_cos (d : Dialect) (s : CsvSt) : Cos (saveField d (encSt s)) (saveField d s) := by
  intro b hb _
  unfold saveField at hb ⊢
  have e : (encSt s).numeric = s.numeric := rfl
  rw [e]
  split at hb
  · exact absurd hb (by simp)
  · rename_i h
    rw [if_neg h]
    rw [Except.ok.injEq] at hb
    rw [← hb]
    unfold encSt
    simp only [savedField_utf8, List.map_append, List.map_cons, List.map_nil]
    rfl

theorem inBytes_state (st : CsvState) (m s' : CsvSt) (h : (Except.ok { m with state := st } : Except Err CsvSt) = .ok s') (hb : InBytes s') : InBytes m := by
  rw [Except.ok.injEq] at h
  rw [← h] at hb
  exact hb

theorem save_cos (d : Dialect) (s : CsvSt) (st : CsvState) :
    Cos (do .ok { (← saveField d (encSt s)) with state := st }) (do .ok { (← saveField d s) with state := st }) :=
  Cos.bind (saveField_cos d s) _ _ (fun s => Cos.ok { s with state := st }) (inBytes_state st)

theorem add_cos (s : CsvSt) (c : Char) (hc : c.toNat < 0x80) (st : CsvState) :
    Cos (do .ok { (← addChar (encSt s) c) with state := st }) (do .ok { (← addChar s c) with state := st }) :=
  Cos.bind (addChar_cos s c hc) _ _ (fun s => Cos.ok { s with state := st }) (inBytes_state st)

theorem step_cos (d : Dialect) (s : CsvSt) (ch : Option Char) (hch : ∀ c, ch = some c → c.toNat < 0x80) : Cos (processChar d (encSt s) ch) (processChar d s ch) := by
  have hst : (encSt s).state = s.state := rfl
  have hstart : Cos (procStart d (encSt s) ch) (procStart d s ch) := by
    unfold procStart
    cases ch with
    | none => exact Cos.ok s
    | some c =>
      have hc := hch c rfl
      dsimp only
      split
      · exact save_cos d s _
      · split
        · exact Cos.ok { s with state := .inQuotedField }
        · split
          · exact Cos.ok { s with state := .escapedChar }
          · split
            · exact Cos.ok { s with state := .startField }
            · split
              · exact save_cos d s _
              · exact add_cos { s with numeric := s.numeric || d.quoting == .nonnumeric } c hc _
  have hfield : Cos (procInField d (encSt s) ch) (procInField d s ch) := by
    unfold procInField
    cases ch with
    | none =>
      dsimp only
      rw [hst]
      split
      · exact Cos.ok s
      · exact save_cos d s _
    | some c =>
      have hc := hch c rfl
      dsimp only
      split
      · exact save_cos d s _
      · split
        · exact Cos.ok { s with state := .escapedChar }
        · split
          · exact save_cos d s _
          · exact addChar_cos s c hc
  have hget : (ch.getD '\n').toNat < 0x80 := by
    cases ch with
    | none => decide
    | some c => exact hch c rfl
  have hget0 : (ch.getD '\x00').toNat < 0x80 := by
    cases ch with
    | none => decide
    | some c => exact hch c rfl
  unfold processChar
  rw [hst]
  cases s.state with
  | startRecord => exact hstart
  | startField => exact hstart
  | escapedChar =>
    dsimp only
    unfold procEscaped
    refine Cos.bind ?_ _ _ ?_ ?_
    · unfold addNewline
      cases ch with
      | none => exact Cos.ok s
      | some c =>
        dsimp only
        split
        · exact addChar_cos s c (hch c rfl)
        · exact Cos.ok s
    · intro s
      exact add_cos s _ hget _
    · intro m s' h1 h2
      obtain ⟨k, h3, h4⟩ := bind_ok h1
      rw [Except.ok.injEq] at h4
      obtain ⟨h5, -⟩ := addChar_room h3
      rw [← h4, h5] at h2
      unfold InBytes at h2 ⊢
      rw [utf8_append, List.length_append] at h2
      omega
  | inField => exact hfield
  | afterEscapedCrnl => exact hfield
  | inQuotedField =>
    dsimp only
    unfold procQuoted
    cases ch with
    | none => exact Cos.ok s
    | some c =>
      have hc := hch c rfl
      dsimp only
      split
      · exact Cos.ok { s with state := .escapeInQuotedField }
      · split
        · exact Cos.ok { s with state := _ }
        · exact addChar_cos s c hc
  | escapeInQuotedField =>
    dsimp only
    exact add_cos s _ hget _
  | quoteInQuotedField =>
    dsimp only
    unfold procQuoteQuoted
    dsimp only
    split
    · exact add_cos s _ hget0 _
    · split
      · exact save_cos d s _
      · split
        · exact save_cos d s _
        · split
          · exact add_cos s _ hget0 _
          · exact Cos.error _ _
  | eatCrnl =>
    dsimp only
    unfold procEat
    cases ch with
    | none => exact Cos.ok { s with state := .startRecord }
    | some c =>
      dsimp only
      split
      · exact Cos.ok s
      · exact Cos.error _ _

/-- bytes beyond ASCII are appended if there is room -/
theorem fold_high_room (d : Dialect) (hd : AsciiDialect d) : ∀ (l : List Char), (∀ b ∈ l, 0x80 ≤ b.toNat) → l ≠ [] → ∀ (s s' : CsvSt),
    hiPrep d s = some s' → s'.field.length + l.length ≤ fieldLimit →
    l.foldlM (fun s c => processChar d s (some c)) s = .ok { s' with field := s'.field ++ l } := by
  intro l
  induction l with
  | nil => intro _ h; exact absurd rfl h
  | cons c l ih =>
    intro hl _ s s' hp hlen
    rw [List.length_cons] at hlen
    have ha : addChar s' c = .ok { s' with field := s'.field ++ [c] } := by
      unfold addChar
      rw [if_neg (by omega)]
    rw [List.foldlM_cons, step_high d hd s c (hl c List.mem_cons_self), hp]
    have e : ((some s').elim (Except.error Err.other) fun s' => addChar s' c) = .ok { s' with field := s'.field ++ [c] } := ha
    rw [e]
    cases l with
    | nil => rfl
    | cons c2 l =>
      have := ih (fun b hb => hl b (List.mem_cons_of_mem _ hb)) (by simp) { s' with field := s'.field ++ [c] } _ (hiPrep_stable d s s' _ hp) (by
        simp only [List.length_append, List.length_cons, List.length_nil] at hlen ⊢
        omega)
      rw [List.append_assoc] at this
      exact this

/-- one character in bytes -/
theorem char_cos (d : Dialect) (hd : AsciiDialect d) (s : CsvSt) (c : Char) :
    Cos ((utf8Of c.toNat).foldlM (fun s c => processChar d s (some c)) (encSt s)) (processChar d s (some c)) := by
  by_cases hc : c.toNat < 0x80
  · rw [utf8Of_ascii c hc]
    have e : ([c].foldlM (fun s c => processChar d s (some c)) (encSt s) : Except Err CsvSt) = processChar d (encSt s) (some c) := by
      rw [List.foldlM_cons]
      cases processChar d (encSt s) (some c) <;> rfl
    rw [e]
    exact step_cos d s (some c) fun x hx => by
      rw [Option.some.injEq] at hx
      rw [← hx]
      exact hc
  · intro b hb hfit
    rw [step_high d hd s c (by omega)] at hb
    have h4 : (hiPrep d s).map encSt = hiPrep d (encSt s) := by
      unfold hiPrep
      have : (encSt s).state = s.state := rfl
      rw [this]
      cases s.state with
      | quoteInQuotedField => cases d.strict <;> rfl
      | _ => rfl
    cases hp : hiPrep d s with
    | none =>
      rw [hp] at hb
      exact absurd hb (by simp)
    | some s2 =>
      rw [hp] at hb h4
      obtain ⟨rfl, -⟩ := addChar_room hb
      have e1 : utf8 [c] = utf8Of c.toNat := List.append_nil _
      unfold InBytes at hfit
      rw [utf8_append, e1, List.length_append] at hfit
      rw [fold_high_room d hd _ (utf8Of_high c.toNat (char_le c) (by omega)) (utf8Of_ne_nil _) (encSt s) (encSt s2) h4.symm hfit]
      unfold encSt
      dsimp only
      rw [utf8_append, e1]

theorem fold_cos (d : Dialect) (hd : AsciiDialect d) : ∀ (l : List Char) (s : CsvSt),
    (∀ p, p <+: l → ∀ s', p.foldlM (fun s c => processChar d s (some c)) s = .ok s' → InBytes s') → ∀ s', l.foldlM (fun s c => processChar d s (some c)) s = .ok s' →
      (utf8 l).foldlM (fun s c => processChar d s (some c)) (encSt s) = .ok (encSt s') := by
  intro l
  induction l with
  | nil =>
    intro s _ s' h
    have e : (Except.ok s : Except Err CsvSt) = .ok s' := h
    rw [Except.ok.injEq] at e
    rw [← e]
    rfl
  | cons c l ih =>
    intro s hfit s' h
    have e : utf8 (c :: l) = utf8Of c.toNat ++ utf8 l := rfl
    rw [List.foldlM_cons] at h
    obtain ⟨m, h1, h2⟩ := bind_ok h
    rw [e, List.foldlM_append]
    have hm : InBytes m := hfit [c] ⟨l, rfl⟩ m (by
      rw [List.foldlM_cons, h1]
      rfl)
    rw [char_cos d hd s c m h1 hm]
    refine ih m (fun p hp s'' hs'' => ?_) s' h2
    refine hfit (c :: p) ?_ s'' ?_
    · obtain ⟨q, rfl⟩ := hp
      exact ⟨q, rfl⟩
    · rw [List.foldlM_cons, h1]
      exact hs''

theorem feedLine_cos (d : Dialect) (hd : AsciiDialect d) (s : CsvSt) (l : List Char)
    (hfit : ∀ p, p <+: l ++ ['\n'] → ∀ s', p.foldlM (fun s c => processChar d s (some c)) s = .ok s' → InBytes s')
    (s' : CsvSt) (h : feedLine d s l = .ok s') (hb : InBytes s') : feedLine d (encSt s) (utf8 l) = .ok (encSt s') := by
  unfold feedLine at h ⊢
  have e : utf8 l ++ ['\n'] = utf8 (l ++ ['\n']) := by
    rw [utf8_append, utf8_single '\n' (by decide)]
  obtain ⟨m, h1, h2⟩ := bind_ok h
  rw [e, fold_cos d hd _ s hfit m h1]
  exact step_cos d m none (fun c hc => absurd hc (by simp)) s' h2 hb

theorem parseLines_cos (d : Dialect) (hd : AsciiDialect d) : ∀ (ls : List (List Char)) (s : CsvSt) (r : List (List (List Char))),
    FieldsFit d s ls → parseLines d s ls = .ok r → parseLines d (encSt s) (ls.map utf8) = .ok (r.map (·.map utf8)) := by
  intro ls
  induction ls with
  | nil =>
    intro s r _ h
    have e : (Except.ok [] : Except Err (List (List (List Char)))) = .ok r := h
    rw [Except.ok.injEq] at e
    rw [← e]
    rfl
  | cons l ls ih =>
    intro s r hfit h
    rw [parseLines_cons] at h
    rw [List.map_cons, parseLines_cons]
    obtain ⟨s1, h1, h2⟩ := bind_ok h
    obtain ⟨f1, f2⟩ := hfit
    obtain ⟨f3, f4⟩ := f2 s1 h1
    rw [feedLine_cos d hd s l f1 s1 h1 f3]
    dsimp only [bind, Except.bind] at h2 ⊢
    have hst : (encSt s1).state = s1.state := rfl
    rw [hst]
    by_cases hs : s1.state = .startRecord
    · rw [if_pos hs] at h2 f4 ⊢
      have e : ({ state := s1.state, field := (encSt s1).field, numeric := (encSt s1).numeric } : CsvSt) = encSt { s1 with fields := [] } := rfl
      rw [e]
      cases hm : parseLines d { s1 with fields := [] } ls with
      | error x => rw [hm] at h2; exact absurd h2 (by simp)
      | ok m =>
        rw [hm] at h2
        rw [ih _ m f4 hm]
        dsimp only at h2 ⊢
        rw [Except.ok.injEq] at h2
        rw [← h2]
        rfl
    · rw [if_neg hs] at h2 f4 ⊢
      exact ih s1 r f4 h2

/-! ## bytes that are read have room -/

/-- a field of the parser never grows beyond the limit -/
theorem addChar_limit {s s' : CsvSt} {c : Char} (h : addChar s c = .ok s') : s'.field.length ≤ fieldLimit := by
  obtain ⟨rfl, h2⟩ := addChar_room h
  rw [List.length_append, List.length_singleton]
  omega

theorem add_limit {s s' : CsvSt} {c : Char} {st : CsvState} (h : (do .ok { (← addChar s c) with state := st } : Except Err CsvSt) = .ok s') : s'.field.length ≤ fieldLimit := by
  obtain ⟨m, h1, h2⟩ := bind_ok h
  rw [Except.ok.injEq] at h2
  rw [← h2]
  have := addChar_limit h1
  exact this

theorem save_limit {d : Dialect} {s s' : CsvSt} {st : CsvState} (h : (do .ok { (← saveField d s) with state := st } : Except Err CsvSt) = .ok s') : s'.field.length ≤ fieldLimit := by
  obtain ⟨m, h1, h2⟩ := bind_ok h
  rw [Except.ok.injEq] at h2
  rw [← h2]
  unfold saveField at h1
  split at h1
  · exact absurd h1 (by simp)
  · rw [Except.ok.injEq] at h1
    rw [← h1]
    exact Nat.zero_le _

theorem keep_limit {s s' m : CsvSt} (hl : s.field.length ≤ fieldLimit) (h : (Except.ok m : Except Err CsvSt) = .ok s') (hm : m.field = s.field) : s'.field.length ≤ fieldLimit := by
  rw [Except.ok.injEq] at h
  rw [← h, hm]
  exact hl

theorem step_limit (d : Dialect) (s s' : CsvSt) (ch : Option Char) (hl : s.field.length ≤ fieldLimit) (h : processChar d s ch = .ok s') : s'.field.length ≤ fieldLimit := by
  unfold processChar at h
  split at h
  all_goals first
    | unfold procStart at h
    | unfold procEscaped at h
    | unfold procInField at h
    | unfold procQuoted at h
    | unfold procEscapeQuoted at h
    | unfold procQuoteQuoted at h
    | unfold procEat at h
  all_goals (try (obtain ⟨m, -, h⟩ := bind_ok h; exact add_limit h))
  all_goals (try dsimp only at h)
  all_goals (repeat' split at h)
  all_goals first
    | exact save_limit h
    | exact add_limit h
    | exact addChar_limit h
    | exact keep_limit hl h rfl
    | exact absurd h (by simp)

theorem fold_limit (d : Dialect) : ∀ (l : List Char) (s s' : CsvSt), s.field.length ≤ fieldLimit → l.foldlM (fun s c => processChar d s (some c)) s = .ok s' → s'.field.length ≤ fieldLimit := by
  intro l
  induction l with
  | nil =>
    intro s s' hl h
    exact keep_limit hl h rfl
  | cons c l ih =>
    intro s s' hl h
    rw [List.foldlM_cons] at h
    obtain ⟨m, h1, h2⟩ := bind_ok h
    exact ih m s' (step_limit d s m _ hl h1) h2

theorem fieldsFit_of_bytes (d : Dialect) (hd : AsciiDialect d) : ∀ (ls : List (List Char)) (s : CsvSt) (r : List (List (List Char))), InBytes s →
    parseLines d (encSt s) (ls.map utf8) = .ok r → FieldsFit d s ls := by
  intro ls
  induction ls with
  | nil => intro s r _ _; trivial
  | cons l ls ih =>
    intro s r hs h
    rw [List.map_cons, parseLines_cons] at h
    obtain ⟨b, h1, h2⟩ := bind_ok h
    obtain ⟨s1, h3, rfl⟩ := feedLine_sim d hd s l b h1
    unfold feedLine at h1
    obtain ⟨m, g1, g2⟩ := bind_ok h1
    have hm : m.field.length ≤ fieldLimit := fold_limit d _ (encSt s) _ hs g1
    have hs1 : InBytes s1 := step_limit d m _ _ hm g2
    have e : utf8 l ++ ['\n'] = utf8 (l ++ ['\n']) := by
      rw [utf8_append, utf8_single '\n' (by decide)]
    refine ⟨fun p hp s' hs' => ?_, fun s' hs' => ?_⟩
    · obtain ⟨q, hq⟩ := hp
      rw [e, ← hq, utf8_append, List.foldlM_append] at g1
      obtain ⟨k, k1, -⟩ := bind_ok g1
      obtain ⟨s2, k2, rfl⟩ := fold_sim d hd p s k k1
      have e2 : s2 = s' := Except.ok.inj (k2.symm.trans hs')
      rw [← e2]
      exact fold_limit d _ (encSt s) _ hs k1
    · have e2 : s1 = s' := Except.ok.inj (h3.symm.trans hs')
      rw [← e2]
      refine ⟨hs1, ?_⟩
      dsimp only [bind, Except.bind] at h2
      have hst : (encSt s1).state = s1.state := rfl
      rw [hst] at h2
      by_cases hst : s1.state = .startRecord
      · rw [if_pos hst] at h2 ⊢
        have e : ({ state := s1.state, field := (encSt s1).field, numeric := (encSt s1).numeric } : CsvSt) = encSt { s1 with fields := [] } := rfl
        rw [e] at h2
        cases hm : parseLines d (encSt { s1 with fields := [] }) (ls.map utf8) with
        | error x => rw [hm] at h2; exact absurd h2 (by simp)
        | ok m => exact ih { s1 with fields := [] } m hs1 hm
      · rw [if_neg hst] at h2 ⊢
        exact ih s1 r hs1 h2

/-- **C98 (exactly)** The records of a UTF-8 file are the UTF-8 of the records of its characters exactly when no field takes more than 128 × 1024 bytes on the way; otherwise
the import stops with an error.  So the limit is the only trace of the bytes. -/
theorem C98_exact (d : Dialect) (hd : AsciiDialect d) (lines : List (List Char)) (r : List (List (List Char))) :
    parseLines d {} (lines.map utf8) = .ok r ↔
      FieldsFit d {} lines ∧ ∃ r', parseLines d {} lines = .ok r' ∧ r = r'.map (·.map utf8) := by
  constructor
  · intro h
    exact ⟨fieldsFit_of_bytes d hd lines {} r (Nat.zero_le _) h, parseLines_sim d hd lines {} r h⟩
  · rintro ⟨h1, r', h2, rfl⟩
    exact parseLines_cos d hd lines {} r' h1 h2

/-- two lines with letters of two bytes -/
example : ∃ r, parseLines {} {} (["é,ü".toList, "a,b".toList].map utf8) = .ok r ∧ FieldsFit {} {} ["é,ü".toList, "a,b".toList] := by
  have h : ∃ r, parseLines {} {} (["é,ü".toList, "a,b".toList].map utf8) = .ok r := ⟨_, rfl⟩
  obtain ⟨r, h⟩ := h
  exact ⟨r, h, ((C98_exact {} ⟨by decide, by decide, by decide⟩ _ r).1 h).1⟩

end Tablite
