import Verif.Model.TextEscape
/-!
# C123 Lines split into fields by `TextEscape`
-/

namespace Tablite

/-! ## Specification -/

/-- the fields of a line with the delimiter between them -/
def joinWith (d : List Char) : List (List Char) → List Char
  | [] => []
  | [w] => w
  | w :: ws => w ++ d ++ joinWith d ws

/-- the text of a field in quotes: quotes and backslashes are written twice -/
def escQuote (q : Char) (w : List Char) : List Char := q :: w.flatMap (fun c => if c = q ∨ c = '\\' then [c, c] else [c]) ++ [q]

/-- a field as written: in quotes or as it is -/
def fieldText (q : Char) (f : Bool × List Char) : List Char := if f.1 then escQuote q f.2 else f.2

/-- a field that may be written as it is: no delimiter, backslash or line end, and no quote in front -/
def UnquotedField (d q : Char) (w : List Char) : Prop := d ∉ w ∧ '\\' ∉ w ∧ '\n' ∉ w ∧ '\r' ∉ w ∧ w.head? ≠ some q

/-! ## `str.split` -/

theorem splitGo_ne (d : List Char) (n : Nat) (s : List Char) : splitGo d n s ≠ [] := by
  induction s generalizing n with
  | nil => cases n <;> simp [splitGo]
  | cons c t ih =>
    cases n with
    | succ n => rw [splitGo]; exact ih n
    | zero =>
      rw [splitGo]
      split
      · simp
      · split <;> simp

theorem joinWith_cons (d w : List Char) (ws : List (List Char)) (h : ws ≠ []) : joinWith d (w :: ws) = w ++ d ++ joinWith d ws := by
  cases ws with
  | nil => exact absurd rfl h
  | cons => rfl

theorem splitGo_join (d : List Char) (hd : d ≠ []) (n : Nat) (s : List Char) : joinWith d (splitGo d n s) = s.drop n := by
  induction s generalizing n with
  | nil => cases n <;> simp [splitGo, joinWith]
  | cons c t ih =>
    cases n with
    | succ n => rw [splitGo, ih]; rfl
    | zero =>
      rw [splitGo]
      split
      · rename_i h
        rw [joinWith_cons _ _ _ (splitGo_ne _ _ _), ih]
        obtain ⟨r, hr⟩ := List.isPrefixOf_iff_prefix.1 h
        cases d with
        | nil => exact absurd rfl hd
        | cons x d =>
          simp only [List.cons_append, List.cons.injEq] at hr
          rw [← hr.2, hr.1]; simp
      · have h0 := ih 0
        rw [List.drop_zero] at h0 ⊢
        split
        · rename_i h; exact absurd h (splitGo_ne _ _ _)
        · rename_i w ws h
          rw [h] at h0
          cases ws with
          | nil => rw [joinWith] at h0 ⊢; rw [h0]
          | cons => rw [joinWith_cons _ _ _ (by simp)] at h0 ⊢; rw [← h0]; simp

/-- the first piece is the beginning of the text -/
theorem splitGo_head (d : List Char) (s w : List Char) (ws : List (List Char)) (h : splitGo d 0 s = w :: ws) : w <+: s := by
  induction s generalizing w ws with
  | nil => rw [splitGo] at h; cases h; exact List.prefix_rfl
  | cons c t ih =>
    rw [splitGo] at h
    split at h
    · cases h; exact List.nil_prefix
    · split at h
      · rename_i h'; exact absurd h' (splitGo_ne _ _ _)
      · rename_i v vs h'
        cases h
        exact List.cons_prefix_cons.2 ⟨rfl, ih v _ h'⟩

theorem splitGo_free (d : List Char) (hd : d ≠ []) (n : Nat) (s w : List Char) (h : w ∈ splitGo d n s) : ¬ d <:+: w := by
  induction s generalizing n w with
  | nil =>
    have : w = [] := by cases n <;> simpa [splitGo] using h
    subst this
    intro h; exact hd (List.infix_nil.1 h)
  | cons c t ih =>
    cases n with
    | succ n => rw [splitGo] at h; exact ih n w h
    | zero =>
      rw [splitGo] at h
      split at h
      · rcases List.mem_cons.1 h with rfl | h
        · intro h; exact hd (List.infix_nil.1 h)
        · exact ih _ w h
      · rename_i hp
        split at h
        · rename_i h'; exact absurd h' (splitGo_ne _ _ _)
        · rename_i v vs h'
          rcases List.mem_cons.1 h with rfl | h
          · intro hi
            rcases List.infix_cons_iff.1 hi with hi | hi
            · exact hp (List.isPrefixOf_iff_prefix.2 (hi.trans (List.cons_prefix_cons.2 ⟨rfl, splitGo_head d t v vs h'⟩)))
            · exact ih 0 v (by rw [h']; simp) hi
          · exact ih 0 w (by rw [h']; simp [h])

/-! ## The reader of Python fed character by character -/

/-- the records of a text; the flag tells whether the present line has a character already -/
def pyMid (d q : Char) : Bool → PySt → List Char → Except Err (List (List (List Char)))
  | false, s, [] => pyRecords d q s []
  | true, s, [] => do
    let s' ← pyStep d q s none
    if s'.state = .startRecord then .ok [s'.fields] else pyRecords d q s' []
  | _, s, c :: t => do
    let s1 ← pyStep d q s (some c)
    if c = '\n' then do
      let s2 ← pyStep d q s1 none
      if s2.state = .startRecord then do .ok (s2.fields :: (← pyMid d q false {} t)) else pyMid d q false s2 t
    else pyMid d q true s1 t

theorem ioLines_nil (t : List Char) : ioLines t = [] ↔ t = [] := by
  cases t with
  | nil => simp [ioLines]
  | cons c t =>
    rw [ioLines]
    split
    · simp
    · split <;> simp

theorem pyRecords_mid (d q : Char) (t : List Char) :
    (∀ s, pyRecords d q s (ioLines t) = pyMid d q false s t) ∧
    (∀ s, t ≠ [] → pyRecords d q s (ioLines t) = pyMid d q true s t) := by
  induction t with
  | nil => exact ⟨fun s => rfl, fun s h => absurd rfl h⟩
  | cons c t ih =>
    have key : ∀ s b, pyRecords d q s (ioLines (c :: t)) = pyMid d q b s (c :: t) := by
      intro s b
      have hb : pyMid d q b s (c :: t) = (do
          let s1 ← pyStep d q s (some c)
          if c = '\n' then do
            let s2 ← pyStep d q s1 none
            if s2.state = .startRecord then do .ok (s2.fields :: (← pyMid d q false {} t)) else pyMid d q false s2 t
          else pyMid d q true s1 t) := by cases b <;> rfl
      rw [hb, ioLines]
      by_cases hc : c = '\n'
      · rw [if_pos hc, pyRecords, pyFeed]
        simp only [List.foldlM_cons, List.foldlM_nil, bind_assoc, pure_bind, if_pos hc, ih.1]
      · rw [if_neg hc]
        simp only [if_neg hc]
        cases ht : ioLines t with
        | nil =>
          rw [(ioLines_nil t).1 ht]
          rw [pyRecords, pyFeed]
          simp only [List.foldlM_cons, List.foldlM_nil, bind_assoc, pure_bind, pyMid]
          congr
        | cons l ls =>
          have hne : t ≠ [] := fun e => by rw [e] at ht; cases ht
          rw [pyRecords, pyFeed]
          simp only [List.foldlM_cons, bind_assoc]
          congr
          funext s1
          rw [← ih.2 s1 hne, ht, pyRecords, pyFeed]
          simp only [bind_assoc]
    exact ⟨fun s => key s false, fun s _ => key s true⟩

theorem pyMid_cons (d q : Char) (b : Bool) (s s1 : PySt) (c : Char) (t : List Char) (h : pyStep d q s (some c) = .ok s1) (hc : c ≠ '\n') :
    pyMid d q b s (c :: t) = pyMid d q true s1 t := by
  cases b <;> (rw [pyMid, h]; exact if_neg hc)

theorem pyAdd_ok (s : PySt) (c : Char) (st : CsvState) (h : s.field.length < fieldLimit) :
    pyAdd s c st = .ok { s with field := s.field ++ [c], state := st } := if_neg (by omega)

/-- the inside of quotes -/
theorem mid_quoted (d q : Char) (hq : q ≠ '\\') (hqn : q ≠ '\n') (w f : List Char) (fs : List (List Char)) (rest : List Char) (b : Bool)
    (hl : f.length + w.length ≤ fieldLimit) :
    pyMid d q b ⟨.inQuotedField, f, fs⟩ (w.flatMap (fun c => if c = q ∨ c = '\\' then [c, c] else [c]) ++ q :: rest)
      = pyMid d q true ⟨.quoteInQuotedField, f ++ w, fs⟩ rest := by
  induction w generalizing f b with
  | nil =>
    rw [List.flatMap_nil, List.nil_append, List.append_nil]
    exact pyMid_cons d q b _ _ q rest (by simp [pyStep, hq]) hqn
  | cons c w ih =>
    rw [List.length_cons] at hl
    have ih' := fun b => ih (f ++ [c]) b (by rw [List.length_append, List.length_singleton]; omega)
    rw [List.append_assoc, List.singleton_append] at ih'
    rw [List.flatMap_cons]
    by_cases h1 : c = q
    · subst h1
      rw [if_pos (Or.inl rfl)]
      show pyMid d c b _ (c :: c :: _) = _
      rw [pyMid_cons d c b _ ⟨.quoteInQuotedField, f, fs⟩ c _ (by simp [pyStep, hq]) hqn]
      rw [pyMid_cons d c true _ ⟨.inQuotedField, f ++ [c], fs⟩ c _ ?_ hqn]
      · exact ih' true
      · simp only [pyStep]
        rw [pyAdd_ok _ _ _ (by show f.length < _; omega)]
        split <;> simp
    · by_cases h2 : c = '\\'
      · subst h2
        rw [if_pos (Or.inr rfl)]
        show pyMid d q b _ ('\\' :: '\\' :: _) = _
        rw [pyMid_cons d q b _ ⟨.escapeInQuotedField, f, fs⟩ '\\' _ (by simp [pyStep]) (by decide)]
        rw [pyMid_cons d q true _ ⟨.inQuotedField, f ++ ['\\'], fs⟩ '\\' _ ?_ (by decide)]
        · exact ih' true
        · simp only [pyStep]
          rw [pyAdd_ok _ _ _ (by show f.length < _; omega)]
          rfl
      · rw [if_neg (by simp [h1, h2])]
        show pyMid d q b _ (c :: _) = _
        have hs : pyStep d q ⟨.inQuotedField, f, fs⟩ (some c) = .ok ⟨.inQuotedField, f ++ [c], fs⟩ := by
          simp only [pyStep, if_neg h1, if_neg h2]
          rw [pyAdd_ok _ _ _ (by show f.length < _; omega)]
        by_cases h3 : c = '\n'
        · have : pyMid d q b ⟨.inQuotedField, f, fs⟩ (c :: (w.flatMap (fun c => if c = q ∨ c = '\\' then [c, c] else [c]) ++ q :: rest))
              = pyMid d q false ⟨.inQuotedField, f ++ [c], fs⟩ (w.flatMap (fun c => if c = q ∨ c = '\\' then [c, c] else [c]) ++ q :: rest) := by
            cases b <;> (rw [pyMid, hs]; exact if_pos h3)
          exact this.trans (ih' false)
        · rw [pyMid_cons d q b _ _ c _ hs h3]
          exact ih' true

/-- a plain field from its second character on -/
theorem mid_plain (d q : Char) (w f : List Char) (fs : List (List Char)) (rest : List Char)
    (h1 : d ∉ w) (h2 : '\\' ∉ w) (h3 : '\n' ∉ w) (h4 : '\r' ∉ w) (hl : f.length + w.length ≤ fieldLimit) :
    pyMid d q true ⟨.inField, f, fs⟩ (w ++ rest) = pyMid d q true ⟨.inField, f ++ w, fs⟩ rest := by
  induction w generalizing f with
  | nil => simp
  | cons c w ih =>
    simp only [List.mem_cons, not_or] at h1 h2 h3 h4
    rw [List.length_cons] at hl
    rw [List.cons_append, pyMid_cons d q true _ ⟨.inField, f ++ [c], fs⟩ c _ ?_ (Ne.symm h3.1),
      ih (f ++ [c]) h1.2 h2.2 h3.2 h4.2 (by rw [List.length_append, List.length_singleton]; omega)]
    · simp
    · have e : pyIsEnd (some c) = false := by simp [pyIsEnd, Ne.symm h3.1, Ne.symm h4.1]
      simp only [pyStep, pyInField, e]
      rw [if_neg (by simp), if_neg (Ne.symm h2.1), if_neg (Ne.symm h1.1), pyAdd_ok _ _ _ (by show f.length < _; omega)]

/-- the state after a whole field was read: the field is held, and a delimiter or the end of the line saves it -/
def HasField (d q : Char) (s : PySt) (w : List Char) (fs : List (List Char)) : Prop :=
  pyStep d q s none = .ok ⟨.startRecord, [], fs ++ [w]⟩ ∧ pyStep d q s (some d) = .ok ⟨.startField, [], fs ++ [w]⟩

/-- the state before a field -/
def FieldStart (s : PySt) (fs : List (List Char)) : Prop := s = ⟨.startField, [], fs⟩ ∨ (s = ⟨.startRecord, [], fs⟩ ∧ fs = [])

theorem step_start (d q : Char) (s : PySt) (fs : List (List Char)) (hs : FieldStart s fs) (c : Char) (h3 : c ≠ '\n') (h4 : c ≠ '\r') :
    pyStep d q s (some c) = pyStartField d q s (some c) := by
  rcases hs with rfl | ⟨rfl, -⟩
  · rfl
  · simp [pyStep, h3, h4]

/-- a field as written is read, before a delimiter or the end of the line; an empty field leaves the state before it -/
theorem mid_field (d q : Char) (hq : q ≠ '\\') (hqn : q ≠ '\n') (hqr : q ≠ '\r') (hdq : d ≠ q) (hdn : d ≠ '\n') (hdr : d ≠ '\r') (hdb : d ≠ '\\')
    (f : Bool × List Char) (hp : f.1 = false → UnquotedField d q f.2) (hl : f.2.length ≤ fieldLimit)
    (s : PySt) (fs : List (List Char)) (hs : FieldStart s fs) (b : Bool) (rest : List Char) :
    (f ≠ (false, []) → ∃ s', HasField d q s' f.2 fs ∧ pyMid d q b s (fieldText q f ++ rest) = pyMid d q true s' rest) ∧
    (f = (false, []) → fieldText q f = []) := by
  obtain ⟨qd, w⟩ := f
  refine ⟨fun hne => ?_, fun h => by cases h; rfl⟩
  have hfield : s.field = [] ∧ s.fields = fs := by rcases hs with rfl | ⟨rfl, -⟩ <;> exact ⟨rfl, rfl⟩
  cases qd with
  | true =>
    refine ⟨⟨.quoteInQuotedField, w, fs⟩, ⟨?_, ?_⟩, ?_⟩
    · simp [pyStep, pyIsEnd, pySave, pyEnd]
    · simp [pyStep, pyIsEnd, pySave, hdn, hdr, hdq]
    · have e : fieldText q (true, w) ++ rest = q :: (w.flatMap (fun c => if c = q ∨ c = '\\' then [c, c] else [c]) ++ q :: rest) := by
        simp [fieldText, escQuote]
      rw [e, pyMid_cons d q b s ⟨.inQuotedField, [], fs⟩ q _ ?_ hqn, mid_quoted d q hq hqn w [] fs rest true (by simpa using hl)]
      · simp
      · rw [step_start d q s fs hs q hqn hqr]
        have : pyIsEnd (some q) = false := by simp [pyIsEnd, hqn, hqr]
        rw [pyStartField, if_neg (by simp [this])]
        obtain ⟨st, fd, fds⟩ := s
        obtain ⟨h1, h2⟩ := hfield
        simp only at h1 h2 ⊢
        rw [if_pos trivial, h1, h2]
  | false =>
    obtain ⟨p1, p2, p3, p4, p5⟩ := hp rfl
    cases w with
    | nil => exact absurd rfl hne
    | cons c w =>
      simp only [List.mem_cons, not_or] at p1 p2 p3 p4
      have p5' : c ≠ q := by simpa using p5
      have hl' : w.length + 1 ≤ fieldLimit := by simpa using hl
      refine ⟨⟨.inField, c :: w, fs⟩, ⟨?_, ?_⟩, ?_⟩
      · simp [pyStep, pyInField, pyIsEnd, pySave, pyEnd]
      · simp [pyStep, pyInField, pyIsEnd, pySave, hdn, hdr, hdb]
      · show pyMid d q b s (c :: (w ++ rest)) = _
        rw [pyMid_cons d q b s ⟨.inField, [c], fs⟩ c _ ?_ (Ne.symm p3.1),
          mid_plain d q w [c] fs rest p1.2 p2.2 p3.2 p4.2 (by simp; omega)]
        · simp
        · rw [step_start d q s fs hs c (Ne.symm p3.1) (Ne.symm p4.1)]
          have : pyIsEnd (some c) = false := by simp [pyIsEnd, Ne.symm p3.1, Ne.symm p4.1]
          rw [pyStartField, if_neg (by simp [this])]
          obtain ⟨st, fd, fds⟩ := s
          obtain ⟨h1, h2⟩ := hfield
          simp only at h1 h2 ⊢
          rw [if_neg p5', if_neg (Ne.symm p2.1), if_neg (Ne.symm p1.1), h1, h2, pyAdd_ok _ _ _ (by show 0 < _; omega)]
          simp

/-- the fields of a line are read; the flag is needed for a last field that is empty -/
theorem mid_fields (d q : Char) (hq : q ≠ '\\') (hqn : q ≠ '\n') (hqr : q ≠ '\r') (hdq : d ≠ q) (hdn : d ≠ '\n') (hdr : d ≠ '\r') (hdb : d ≠ '\\')
    (l : List (Bool × List Char)) (hne : l ≠ []) (hp : ∀ f ∈ l, f.1 = false → UnquotedField d q f.2) (hl : ∀ f ∈ l, f.2.length ≤ fieldLimit)
    (s : PySt) (fs : List (List Char)) (hs : FieldStart s fs) (b : Bool)
    (h0 : l = [(false, [])] → s.state = .startField ∧ b = true) :
    pyMid d q b s (joinWith [d] (l.map (fieldText q))) = .ok [fs ++ l.map Prod.snd] := by
  induction l generalizing s fs b with
  | nil => exact absurd rfl hne
  | cons f l ih =>
    have key := fun rest => mid_field d q hq hqn hqr hdq hdn hdr hdb f (hp f (by simp)) (hl f (by simp)) s fs hs b rest
    cases l with
    | nil =>
      show pyMid d q b s (fieldText q f) = _
      by_cases hf : f = (false, [])
      · obtain ⟨hst, rfl⟩ := h0 (by rw [hf])
        rw [(key []).2 hf]
        rcases hs with rfl | ⟨rfl, -⟩
        · subst hf; simp [pyMid, pyStep, pyStartField, pyIsEnd, pySave, pyEnd, bind, Except.bind]
        · cases hst
      · obtain ⟨s', ⟨k1, -⟩, k2⟩ := (key []).1 hf
        rw [List.append_nil] at k2
        rw [k2, pyMid, k1]
        simp [bind, Except.bind]
    | cons g l =>
      have tail := ih (by simp) (fun x hx => hp x (List.mem_cons_of_mem _ hx)) (fun x hx => hl x (List.mem_cons_of_mem _ hx))
        ⟨.startField, [], fs ++ [f.2]⟩ (fs ++ [f.2]) (Or.inl rfl) true (fun _ => ⟨rfl, rfl⟩)
      rw [List.map_cons, joinWith_cons _ _ _ (by simp), List.append_assoc, List.singleton_append]
      rw [List.append_assoc, List.singleton_append] at tail
      rw [List.map_cons (f := Prod.snd)]
      by_cases hf : f = (false, [])
      · rw [(key []).2 hf, List.nil_append, pyMid_cons d q b s ⟨.startField, [], fs ++ [f.2]⟩ d _ ?_ hdn]
        · exact tail
        · rw [step_start d q s fs hs d hdn hdr]
          have : pyIsEnd (some d) = false := by simp [pyIsEnd, hdn, hdr]
          rw [pyStartField, if_neg (by simp [this])]
          simp only [if_neg hdq, if_neg hdb, if_true]
          rw [hf]
          rcases hs with rfl | ⟨rfl, -⟩ <;> rfl
      · obtain ⟨s', ⟨-, k1⟩, k2⟩ := (key (d :: joinWith [d] ((g :: l).map (fieldText q)))).1 hf
        rw [k2, pyMid_cons d q true _ _ d _ k1 hdn]
        exact tail

/-! ## C123 -/

/-- C123 (quotes): with a quote character a line of fields, each written in quotes or plainly, is split into the fields: quotes, delimiters,
backslashes and line ends inside of quotes are kept.  The only line excluded is the empty one (`C123_empty_line`). -/
theorem C123_quoted (d q : Char) (hq : q ≠ '\\') (hqn : q ≠ '\n') (hqr : q ≠ '\r') (hdq : d ≠ q) (hdn : d ≠ '\n') (hdr : d ≠ '\r') (hdb : d ≠ '\\')
    (l : List (Bool × List Char)) (hne : l ≠ []) (h0 : l ≠ [(false, [])])
    (hp : ∀ f ∈ l, f.1 = false → UnquotedField d q f.2) (hl : ∀ f ∈ l, f.2.length ≤ fieldLimit) :
    TextEsc.call ⟨[d], .quoted [q]⟩ (joinWith [d] (l.map (fieldText q))) = .ok (l.map Prod.snd) := by
  simp only [TextEsc.call, escQuoted]
  rw [(pyRecords_mid d q _).1, mid_fields d q hq hqn hqr hdq hdn hdr hdb l hne hp hl {} [] (Or.inr ⟨rfl, rfl⟩) false (fun h => absurd h h0)]
  rfl

/-- C123 (carriage returns): after a plain field a carriage return at the end of the text ends the record; another character behind it is an error -/
theorem C123_return (d q : Char) (hdr : d ≠ '\r') (a : Char) (w : List Char) (ha : a ≠ d ∧ a ≠ q ∧ a ≠ '\\' ∧ a ≠ '\n' ∧ a ≠ '\r') (h1 : d ∉ w) (h2 : '\\' ∉ w) (h3 : '\n' ∉ w) (h4 : '\r' ∉ w)
    (hl : w.length + 1 ≤ fieldLimit) :
    TextEsc.call ⟨[d], .quoted [q]⟩ (a :: w ++ ['\r']) = .ok [a :: w] ∧
    ∀ c rest, c ≠ '\n' → c ≠ '\r' → TextEsc.call ⟨[d], .quoted [q]⟩ (a :: w ++ '\r' :: c :: rest) = .error .other := by
  have key : ∀ rest, pyRecords d q {} (ioLines (a :: w ++ '\r' :: rest)) = pyMid d q true ⟨.eatCrnl, [], [a :: w]⟩ rest := by
    intro rest
    rw [(pyRecords_mid d q _).1, List.cons_append, pyMid_cons d q false _ ⟨.inField, [a], []⟩ a _ ?_ ha.2.2.2.1, mid_plain d q w [a] [] _ h1 h2 h3 h4 (by simp; omega)]
    · exact pyMid_cons d q true _ _ '\r' rest rfl (by decide)
    · have e : pyIsEnd (some a) = false := by simp [pyIsEnd, ha.2.2.2.1, ha.2.2.2.2]
      show pyStep d q ⟨.startRecord, [], []⟩ (some a) = _
      simp only [pyStep, pyStartField, e]
      rw [if_neg (by simp [ha.2.2.2.1, ha.2.2.2.2]), if_neg (by simp), if_neg ha.2.1, if_neg ha.2.2.1, if_neg ha.1, pyAdd_ok _ _ _ (by show 0 < _; omega)]
      rfl
  constructor
  · simp only [TextEsc.call, escQuoted]
    rw [key []]
    rfl
  · intro c rest hn hr
    simp only [TextEsc.call, escQuoted]
    rw [key (c :: rest)]
    have : pyStep d q ⟨.eatCrnl, [], [a :: w]⟩ (some c) = .error .other := by
      simp [pyStep, hn, hr]
    show ((pyStep d q ⟨.eatCrnl, [], [a :: w]⟩ (some c) >>= _) >>= _ : Except Err (List (List Char))) = _
    rw [this]
    rfl

example : TextEsc.call ⟨[';'], .quoted ['"']⟩ (joinWith [';'] ([(true, "a;\"b".toList), (false, []), (true, "x\ny".toList), (false, "c d".toList)].map (fieldText '"')))
    = .ok ["a;\"b".toList, [], "x\ny".toList, "c d".toList] := by decide +kernel

/-- C123 (no quotes): without a quote character the pieces of a line, joined by the delimiter, are the line, and no piece has the delimiter in it,
whatever the delimiter is. -/
theorem C123_plain (d s : List Char) (hd : d ≠ []) :
    ∃ l, TextEsc.call ⟨d, .plain⟩ s = .ok l ∧ joinWith d l = s ∧ ∀ w ∈ l, ¬ d <:+: w :=
  ⟨splitGo d 0 s, if_neg hd, by rw [splitGo_join d hd, List.drop_zero], fun w hw => splitGo_free d hd 0 s w hw⟩

theorem joinWith_inj (d : Char) (a b : List (List Char)) (ha : a ≠ []) (hb : b ≠ []) (ha' : ∀ w ∈ a, d ∉ w) (hb' : ∀ w ∈ b, d ∉ w)
    (h : joinWith [d] a = joinWith [d] b) : a = b := by
  have cut : ∀ (u v x y : List Char), d ∉ u → d ∉ v → u ++ d :: x = v ++ d :: y → u = v ∧ x = y := by
    intro u
    induction u with
    | nil =>
      intro v x y _ hv h
      cases v with
      | nil => simpa using h
      | cons c v => simp only [List.nil_append, List.cons_append, List.cons.injEq] at h; exact absurd (by simp [h.1]) hv
    | cons c u ih =>
      intro v x y hu hv h
      cases v with
      | nil => simp only [List.nil_append, List.cons_append, List.cons.injEq] at h; exact absurd (by simp [h.1]) hu
      | cons c' v =>
        simp only [List.cons_append, List.cons.injEq] at h
        have := ih v x y (fun m => hu (by simp [m])) (fun m => hv (by simp [m])) h.2
        exact ⟨by rw [h.1, this.1], this.2⟩
  induction a generalizing b with
  | nil => exact absurd rfl ha
  | cons u a ih =>
    cases b with
    | nil => exact absurd rfl hb
    | cons v b =>
      have hu := ha' u (by simp)
      have hv := hb' v (by simp)
      by_cases h1 : a = []
      · by_cases h2 : b = []
        · subst h1 h2; rw [joinWith, joinWith] at h; rw [h]
        · rw [joinWith_cons _ _ _ h2, h1, joinWith] at h
          exact absurd (by rw [h]; simp) hu
      · by_cases h2 : b = []
        · rw [joinWith_cons _ _ _ h1, h2, joinWith] at h
          exact absurd (by rw [← h]; simp) hv
        · rw [joinWith_cons _ _ _ h1, joinWith_cons _ _ _ h2, List.append_assoc, List.append_assoc] at h
          obtain ⟨e1, e2⟩ := cut u v _ _ hu hv h
          rw [e1, ih b h1 h2 (fun w hw => ha' w (by simp [hw])) (fun w hw => hb' w (by simp [hw])) e2]

theorem infix_single (d : Char) (w : List Char) : [d] <:+: w ↔ d ∈ w := by
  constructor
  · rintro ⟨a, b, rfl⟩; simp
  · intro h
    obtain ⟨a, b, rfl⟩ := List.append_of_mem h
    exact ⟨a, b, by simp⟩

/-- C123 (no quotes), exactly: fields joined by a delimiter of one character are found again if and only if there is a field and none of them has
the delimiter in it. -/
theorem C123_plain_exact (d : Char) (l : List (List Char)) :
    TextEsc.call ⟨[d], .plain⟩ (joinWith [d] l) = .ok l ↔ l ≠ [] ∧ ∀ w ∈ l, d ∉ w := by
  have e : TextEsc.call ⟨[d], .plain⟩ (joinWith [d] l) = .ok (splitGo [d] 0 (joinWith [d] l)) := rfl
  rw [e]
  have free := fun w hw hm => splitGo_free [d] (by simp) 0 (joinWith [d] l) w hw ((infix_single d w).2 hm)
  constructor
  · intro h
    have h := Except.ok.inj h
    rw [h] at free
    exact ⟨fun hn => splitGo_ne [d] 0 (joinWith [d] l) (by rw [h, hn]), free⟩
  · rintro ⟨h1, h2⟩
    congr 1
    refine joinWith_inj d _ _ (splitGo_ne _ _ _) h1 free h2 ?_
    rw [splitGo_join _ (by simp), List.drop_zero]

/-- C123 (blanks): without a quote character blanks around the pieces are taken off on demand, and nothing else changes -/
theorem C123_strip (d s : List Char) (hd : d ≠ []) :
    ∃ l, TextEsc.call ⟨d, .plain⟩ s = .ok l ∧ TextEsc.call ⟨d, .strip⟩ s = .ok (l.map stripBlanks) := by
  refine ⟨splitGo d 0 s, if_neg hd, ?_⟩
  simp [TextEsc.call, strSplit, hd, bind, Except.bind]

/-- taking blanks off: the rest has none at its ends and what was taken off are blanks -/
theorem stripBlanks_spec (w : List Char) :
    (∃ a b, w = List.replicate a ' ' ++ stripBlanks w ++ List.replicate b ' ') ∧
    (stripBlanks w).head? ≠ some ' ' ∧ (stripBlanks w).getLast? ≠ some ' ' := by
  have drop : ∀ l : List Char, ∃ a, l = List.replicate a ' ' ++ l.dropWhile (· == ' ') := by
    intro l
    induction l with
    | nil => exact ⟨0, rfl⟩
    | cons c t ih =>
      by_cases h : c = ' '
      · obtain ⟨a, ha⟩ := ih
        refine ⟨a + 1, ?_⟩
        rw [List.dropWhile_cons_of_pos (by simp [h]), List.replicate_succ, List.cons_append, ← ha, h]
      · exact ⟨0, by rw [List.dropWhile_cons_of_neg (by simp [h])]; rfl⟩
  have head : ∀ l : List Char, (l.dropWhile (· == ' ')).head? ≠ some ' ' := by
    intro l
    induction l with
    | nil => simp
    | cons c t ih =>
      by_cases h : c = ' '
      · rw [List.dropWhile_cons_of_pos (by simp [h])]; exact ih
      · rw [List.dropWhile_cons_of_neg (by simp [h])]; simpa using h
  obtain ⟨b, hb⟩ := drop w.reverse
  have hb' : w = (w.reverse.dropWhile (· == ' ')).reverse ++ List.replicate b ' ' := by
    have := congrArg List.reverse hb
    rwa [List.reverse_reverse, List.reverse_append, List.reverse_replicate] at this
  obtain ⟨a, ha⟩ := drop (w.reverse.dropWhile (· == ' ')).reverse
  refine ⟨⟨a, b, ?_⟩, head _, ?_⟩
  · rw [stripBlanks, ← ha]; exact hb'
  · intro hl
    have h1 : (w.reverse.dropWhile (· == ' ')).reverse.getLast? = some ' ' := by
      rw [ha, List.getLast?_append]
      rw [stripBlanks] at hl
      rw [hl]; rfl
    rw [List.getLast?_reverse] at h1
    exact head _ h1

/-- C123 in full (as the documentation has it): a delimiter between an opening and its closure does not end a field -/
def C123_brackets_statement : Prop :=
  ∀ (e : TextEsc), newTextEscape (.text "({[".toList) (.text "]})".toList) (some ['"']) (.text [',']) false = .ok e →
    ∀ a b : List Char, UnquotedField ',' '"' a → UnquotedField ',' '"' b → e.call ('(' :: a ++ ',' :: b ++ [')']) = .ok ['(' :: a ++ ',' :: b ++ [')']]

/-- C123 (brackets) fails: `(a,b)` is split into two fields -/
theorem C123_brackets_fails : ¬ C123_brackets_statement := by
  intro h
  have := h ⟨[','], .quoted ['"']⟩ (by decide) ['a'] ['b'] (by unfold UnquotedField; decide) (by unfold UnquotedField; decide)
  revert this
  decide +kernel

/-- C123 (brackets): openings and closures have no effect on any line; they decide only whether the instance is made -/
theorem C123_brackets_ignored (o c o' c' : TextArg) (q : Option (List Char)) (d : TextArg) (strip : Bool) (e e' : TextEsc)
    (h : newTextEscape o c q d strip = .ok e) (h' : newTextEscape o' c' q d strip = .ok e') (s : List Char) : e.call s = e'.call s := by
  have made : ∀ (o c : TextArg) (e : TextEsc), newTextEscape o c q d strip = .ok e →
      ∃ t, d = .text t ∧ e = ⟨t, match q with
        | none => if strip then .strip else .plain
        | some w => if w = [] then (if strip then .strip else .plain) else .quoted w⟩ := by
    intro o c e h
    unfold newTextEscape at h
    by_cases ho : o = .other
    · rw [if_pos ho] at h; cases h
    by_cases hc : c = .other
    · rw [if_neg ho, if_pos hc] at h; cases h
    rw [if_neg ho, if_neg hc] at h
    cases d with
    | none => cases h
    | other => cases h
    | text t =>
      refine ⟨t, rfl, ?_⟩
      cases q with
      | none => exact (Except.ok.inj h).symm
      | some w =>
        simp only at h ⊢
        cases hx : qualifierClash o c w with
        | error => rw [hx] at h; cases h
        | ok x =>
          rw [hx] at h
          cases x
          · simp only [bind, Except.bind, Bool.false_eq_true, if_false] at h
            by_cases hw : w = []
            · rw [if_pos hw] at h ⊢; exact (Except.ok.inj h).symm
            · rw [if_neg hw] at h ⊢; exact (Except.ok.inj h).symm
          · cases h
  obtain ⟨t, ht, he⟩ := made o c e h
  obtain ⟨t', ht', he'⟩ := made o' c' e' h'
  rw [ht] at ht'
  cases ht'
  have this : e = e' := he.trans he'.symm
  rw [this]

/-- C123 in full (blanks): an instance that is to take blanks off gives no field with a blank at its ends -/
def C123_strip_statement : Prop :=
  ∀ (o c : TextArg) (q : Option (List Char)) (d : TextArg) (e : TextEsc), newTextEscape o c q d true = .ok e →
    ∀ s l, e.call s = .ok l → ∀ w ∈ l, w.head? ≠ some ' '

/-- C123 (blanks) fails: with a quote character blanks are kept -/
theorem C123_strip_fails : ¬ C123_strip_statement := by
  intro h
  exact h .none .none (some ['"']) (.text [',']) ⟨[','], .quoted ['"']⟩ (by decide) " a,b".toList [" a".toList, "b".toList] (by decide +kernel)
    " a".toList (by simp) (by decide)

/-- C123 (blanks): with a quote character the demand to take blanks off has no effect -/
theorem C123_strip_ignored (o c : TextArg) (q : List Char) (hq : q ≠ []) (d : TextArg) :
    newTextEscape o c (some q) d true = newTextEscape o c (some q) d false := by
  unfold newTextEscape
  split
  · rfl
  · split
    · rfl
    · cases d with
      | none => rfl
      | other => rfl
      | text d =>
        simp only
        cases qualifierClash o c q with
        | error => rfl
        | ok b =>
          cases b
          · simp [bind, Except.bind, hq]
          · rfl

/-- C123: the empty line is one empty field without a quote character, and raises IndexError with one -/
theorem C123_empty_line (d q : Char) (ds : List Char) (hd : ds ≠ []) :
    TextEsc.call ⟨[d], .quoted [q]⟩ [] = .error .index ∧ TextEsc.call ⟨ds, .plain⟩ [] = .ok [[]] :=
  ⟨rfl, if_neg hd⟩

/-- C123: what the constructor accepts, exactly: openings and closures texts or None, the delimiter a text, and a quote character only with two
texts that do not have it in them or with two None.  So openings None with closures given, or the reverse, cannot be used with quotes. -/
theorem C123_constructor_exact (o c : TextArg) (q : Option (List Char)) (d : TextArg) (strip : Bool) :
    (∃ e, newTextEscape o c q d strip = .ok e) ↔
      o ≠ .other ∧ c ≠ .other ∧ (∃ s, d = .text s) ∧
      ∀ w, q = some w → (o = .none ∧ c = .none) ∨ ∃ a b, o = .text a ∧ c = .text b ∧ occursIn w (a ++ b) = false := by
  unfold newTextEscape
  by_cases ho : o = .other
  · simp [ho]
  by_cases hc : c = .other
  · simp [hc]
  rw [if_neg ho, if_neg hc]
  cases d with
  | none => simp
  | other => simp
  | text d =>
    cases q with
    | none => simp [ho, hc]
    | some q =>
      simp only [ne_eq, ho, hc, not_false_eq_true, true_and, TextArg.text.injEq, exists_eq', Option.some.injEq, forall_eq']
      cases o <;> cases c <;> simp_all [qualifierClash, bind, Except.bind]
      · split <;> exact ⟨_, rfl⟩
      · rename_i a b
        cases h : occursIn q (a ++ b)
        · simp only [Bool.false_eq_true, if_false, iff_true]
          split <;> exact ⟨_, rfl⟩
        · simp

/-- Python's `in` for texts means that the text is a part -/
theorem occursIn_iff (w s : List Char) : occursIn w s = true ↔ w <:+: s := by
  induction s with
  | nil => simp [occursIn]
  | cons c t ih => rw [occursIn, Bool.or_eq_true, ih, List.isPrefixOf_iff_prefix, List.infix_cons_iff]

example : newTextEscape .none .none (some ['"']) (.text [';']) false = .ok ⟨[';'], .quoted ['"']⟩ := by decide
example : newTextEscape (.text ['(']) .none (some ['"']) (.text [';']) false = .error .type := by decide
example : newTextEscape (.text "({[".toList) (.text "]})".toList) (some ['(']) (.text [';']) false = .error .value := by decide
example : TextEsc.call ⟨"::".toList, .strip⟩ "a ::: b::".toList = .ok ["a".toList, ": b".toList, []] := by decide

end Tablite
