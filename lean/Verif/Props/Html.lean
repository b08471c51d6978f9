import Verif.Model.Html
import Verif.Props.Display
import Mathlib.Algebra.BigOperators.Group.List.Basic
/-!
# C138: what a browser shows of `_repr_html_`
-/
namespace Tablite

/-! ## specification: how a browser reads a table -/

/-- a character or a tag -/
inductive HtmlEv
  | chr (c : Char)
  | tag (name : List Char)
  deriving DecidableEq

/-- `<` opens a tag if a letter, `/`, `!` or `?` follows -/
def tagStart : List Char → Bool
  | [] => false
  | c :: _ => c.isAlpha || c == '/' || c == '!' || c == '?'

/-- characters and tags; `some b`: within a tag, `b` was read of it -/
def htmlLex : Option (List Char) → List Char → List HtmlEv
  | _, [] => []
  | some b, c :: r => if c = '>' then .tag b :: htmlLex none r else htmlLex (some (b ++ [c])) r
  | none, c :: r => if c = '<' ∧ tagStart r = true then htmlLex (some []) r else .chr c :: htmlLex none r

/-- a change of the last element -/
def changeLast {β : Type} (f : β → β) : List β → List β
  | [] => []
  | [b] => [f b]
  | b :: c :: r => b :: changeLast f (c :: r)

/-- where the reader is: outside a cell, in a cell, after the table -/
inductive HtmlAt
  | out
  | cell
  | after
  deriving DecidableEq

/-- the rows so far, and where the reader is -/
abbrev HtmlSt := List (List (List Char)) × HtmlAt

/-- one character or tag: `tr` starts a row, `th` a cell, `/th`, `tr` and `/tr` close a cell, `/table` ends the table; other tags are not seen -/
def htmlStep (s : HtmlSt) (e : HtmlEv) : HtmlSt :=
  if s.2 = .after then s
  else match e with
    | .chr c => if s.2 = .cell then (changeLast (changeLast (· ++ [c])) s.1, .cell) else s
    | .tag n =>
      if n = "tr".toList then (s.1 ++ [[]], .out)
      else if n = "th".toList then (changeLast (· ++ [[]]) s.1, .cell)
      else if n = "/th".toList ∨ n = "/tr".toList then (s.1, .out)
      else if n = "/table".toList then (s.1, .after)
      else s

/-- the named characters (the four that are needed to write any text) -/
def htmlDecode : List Char → List Char
  | '&' :: 'l' :: 't' :: ';' :: r => '<' :: htmlDecode r
  | '&' :: 'g' :: 't' :: ';' :: r => '>' :: htmlDecode r
  | '&' :: 'a' :: 'm' :: 'p' :: ';' :: r => '&' :: htmlDecode r
  | '&' :: 'q' :: 'u' :: 'o' :: 't' :: ';' :: r => '"' :: htmlDecode r
  | c :: r => c :: htmlDecode r
  | [] => []

/-- the rows of cells that are shown -/
def htmlShown (html : List Char) : List (List (List Char)) :=
  ((htmlLex none html).foldl htmlStep ([], .out)).1.map fun r => r.map htmlDecode

/-- a text without anything that opens a tag -/
def Calm : List Char → Prop
  | [] => True
  | c :: r => ¬ (c = '<' ∧ tagStart r = true) ∧ Calm r

/-! ## proofs -/

def chrCount (l : List HtmlEv) : Nat := l.countP fun e => match e with | .chr _ => true | .tag _ => false

theorem chrCount_append (a b : List HtmlEv) : chrCount (a ++ b) = chrCount a + chrCount b := List.countP_append

theorem lex_in (rest : List Char) : ∀ (a b : List Char), '>' ∉ a → htmlLex (some b) (a ++ '>' :: rest) = .tag (b ++ a) :: htmlLex none rest := by
  intro a
  induction a with
  | nil => intro b _; simp [htmlLex]
  | cons c a ih =>
    intro b h
    simp only [List.mem_cons, not_or] at h
    rw [List.cons_append, htmlLex, if_neg (Ne.symm h.1), ih _ h.2]
    simp

/-- a text up to the tag that ends its cell -/
theorem lex_cell (rest : List Char) : ∀ f : List Char,
    (Calm f → htmlLex none (f ++ "</th>".toList ++ rest) = f.map .chr ++ .tag "/th".toList :: htmlLex none rest) ∧
    (∃ evs, htmlLex none (f ++ "</th>".toList ++ rest) = evs ++ htmlLex none rest ∧ chrCount evs ≤ f.length ∧ (¬ Calm f → chrCount evs < f.length)) ∧
    ∀ b, ∃ evs, htmlLex (some b) (f ++ "</th>".toList ++ rest) = evs ++ htmlLex none rest ∧ chrCount evs ≤ f.length := by
  intro f
  induction f with
  | nil =>
    have h1 : htmlLex none ("</th>".toList ++ rest) = .tag "/th".toList :: htmlLex none rest := by
      show htmlLex none ('<' :: '/' :: 't' :: 'h' :: '>' :: rest) = _
      simp [htmlLex, tagStart]
    have h2 : ∀ b, htmlLex (some b) ("</th>".toList ++ rest) = .tag (b ++ "</th".toList) :: htmlLex none rest := by
      intro b
      exact lex_in rest "</th".toList b (by decide)
    refine ⟨fun _ => by simpa using h1, ⟨[.tag "/th".toList], by simpa using h1, by simp [chrCount], fun h => absurd trivial h⟩, ?_⟩
    intro b
    exact ⟨[.tag (b ++ "</th".toList)], by simpa using h2 b, by simp [chrCount]⟩
  | cons c f ih =>
    obtain ⟨ih1, ⟨evs, e, hle, hlt⟩, ih3⟩ := ih
    have hstart : tagStart (f ++ "</th>".toList ++ rest) = tagStart f := by
      cases f with
      | nil => rfl
      | cons x f => rfl
    refine ⟨?_, ?_, ?_⟩
    · rintro ⟨h1, h2⟩
      rw [List.cons_append, List.cons_append, htmlLex, hstart, if_neg h1, ih1 h2]
      simp
    · rw [List.cons_append, List.cons_append, htmlLex, hstart]
      by_cases h : c = '<' ∧ tagStart f = true
      · rw [if_pos h]
        obtain ⟨evs', e', h'⟩ := ih3 []
        exact ⟨evs', e', by simp only [List.length_cons]; omega, fun _ => by simp only [List.length_cons]; omega⟩
      · rw [if_neg h]
        refine ⟨.chr c :: evs, by rw [e]; rfl, ?_, ?_⟩
        · simp only [chrCount, List.countP_cons, List.length_cons, if_true]
          exact Nat.add_le_add_right hle 1
        · intro hn
          have := hlt fun hc => hn ⟨h, hc⟩
          simp only [chrCount, List.countP_cons, List.length_cons, if_true]
          exact Nat.add_lt_add_right this 1
    · intro b
      rw [List.cons_append, List.cons_append, htmlLex]
      by_cases hc : c = '>'
      · rw [if_pos hc]
        refine ⟨.tag b :: evs, by rw [e]; rfl, ?_⟩
        simp only [chrCount, List.countP_cons, List.length_cons]
        have : evs.countP (fun e => match e with | .chr _ => true | .tag _ => false) ≤ f.length := hle
        simp only [Bool.false_eq_true, if_false]
        omega
      · rw [if_neg hc]
        obtain ⟨evs', e', h'⟩ := ih3 (b ++ [c])
        exact ⟨evs', e', by simp only [List.length_cons]; omega⟩

theorem lex_tag (name rest : List Char) (h1 : tagStart name = true) (h2 : '>' ∉ name) : htmlLex none ('<' :: (name ++ '>' :: rest)) = .tag name :: htmlLex none rest := by
  have : tagStart (name ++ '>' :: rest) = true := by
    cases name with
    | nil => cases h1
    | cons c n => exact h1
  rw [htmlLex, if_pos ⟨rfl, this⟩, lex_in rest name [] h2]
  rfl

/-- the cells of a row -/
theorem lex_cells (rest : List Char) (cells : List (List Char)) :
    ((∀ f ∈ cells, Calm f) → htmlLex none ((cells.flatMap fun c => "<th>".toList ++ c ++ "</th>".toList) ++ rest) =
      (cells.flatMap fun f => .tag "th".toList :: (f.map .chr ++ [.tag "/th".toList])) ++ htmlLex none rest) ∧
    ∃ evs, htmlLex none ((cells.flatMap fun c => "<th>".toList ++ c ++ "</th>".toList) ++ rest) = evs ++ htmlLex none rest ∧
      chrCount evs ≤ (cells.map List.length).sum ∧ ((∃ f ∈ cells, ¬ Calm f) → chrCount evs < (cells.map List.length).sum) := by
  induction cells with
  | nil => exact ⟨fun _ => rfl, [], rfl, by simp [chrCount], by simp⟩
  | cons f cells ih =>
    obtain ⟨ih1, evs, e, hle, hlt⟩ := ih
    have e0 : ((f :: cells).flatMap fun c => "<th>".toList ++ c ++ "</th>".toList) ++ rest =
        '<' :: ("th".toList ++ '>' :: (f ++ "</th>".toList ++ ((cells.flatMap fun c => "<th>".toList ++ c ++ "</th>".toList) ++ rest))) := by
      simp
    rw [e0, lex_tag _ _ (by decide) (by decide)]
    obtain ⟨c1, ⟨evs', e', hle', hlt'⟩, -⟩ := lex_cell ((cells.flatMap fun c => "<th>".toList ++ c ++ "</th>".toList) ++ rest) f
    refine ⟨?_, ?_⟩
    · intro h
      rw [c1 (h f (by simp)), ih1 fun g hg => h g (by simp [hg])]
      simp
    · refine ⟨.tag "th".toList :: (evs' ++ evs), by rw [e', e]; simp, ?_, ?_⟩
      · have : chrCount (.tag "th".toList :: (evs' ++ evs)) = chrCount (evs' ++ evs) := by simp [chrCount]
        rw [this, chrCount_append, List.map_cons, List.sum_cons]
        omega
      · intro h
        have : chrCount (.tag "th".toList :: (evs' ++ evs)) = chrCount (evs' ++ evs) := by simp [chrCount]
        rw [this, chrCount_append, List.map_cons, List.sum_cons]
        by_cases hf : Calm f
        · have : ∃ f ∈ cells, ¬ Calm f := by
            obtain ⟨g, hg, hn⟩ := h
            rcases List.mem_cons.1 hg with rfl | hg
            · exact absurd hf hn
            · exact ⟨g, hg, hn⟩
          have := hlt this
          omega
        · have := hlt' hf
          omega

/-- the number of characters in all cells -/
def cellSum (rows : List (List (List Char))) : Nat := (rows.map fun r => (r.map List.length).sum).sum

/-- all rows -/
theorem lex_rows (rest : List Char) (rows : List (List (List Char))) :
    ((∀ r ∈ rows, ∀ f ∈ r, Calm f) → htmlLex none (rows.flatMap htmlRow ++ rest) =
      (rows.flatMap fun r => .tag "tr".toList :: ((r.flatMap fun f => .tag "th".toList :: (f.map .chr ++ [.tag "/th".toList])) ++ [.tag "/tr".toList])) ++ htmlLex none rest) ∧
    ∃ evs, htmlLex none (rows.flatMap htmlRow ++ rest) = evs ++ htmlLex none rest ∧ chrCount evs ≤ cellSum rows ∧
      ((∃ r ∈ rows, ∃ f ∈ r, ¬ Calm f) → chrCount evs < cellSum rows) ∧ (evs = [] ∨ ∃ evs', evs = evs' ++ [.tag "/tr".toList]) := by
  induction rows with
  | nil => exact ⟨fun _ => rfl, [], rfl, by simp [chrCount], by simp, .inl rfl⟩
  | cons r rows ih =>
    obtain ⟨ih1, evs, e, hle, hlt, hend⟩ := ih
    have e0 : (r :: rows).flatMap htmlRow ++ rest =
        '<' :: ("tr".toList ++ '>' :: ((r.flatMap fun c => "<th>".toList ++ c ++ "</th>".toList) ++ ('<' :: ("/tr".toList ++ '>' :: (rows.flatMap htmlRow ++ rest))))) := by
      simp [htmlRow]
    rw [e0, lex_tag _ _ (by decide) (by decide)]
    obtain ⟨c1, evs', e', hle', hlt'⟩ := lex_cells ('<' :: ("/tr".toList ++ '>' :: (rows.flatMap htmlRow ++ rest))) r
    have hsum : cellSum (r :: rows) = (r.map List.length).sum + cellSum rows := by simp [cellSum]
    have hcount : chrCount (.tag "tr".toList :: (evs' ++ .tag "/tr".toList :: evs)) = chrCount evs' + chrCount evs := by
      have h1 : chrCount (.tag "tr".toList :: (evs' ++ .tag "/tr".toList :: evs)) = chrCount (evs' ++ .tag "/tr".toList :: evs) := by simp [chrCount]
      have h2 : chrCount (.tag "/tr".toList :: evs) = chrCount evs := by simp [chrCount]
      rw [h1, chrCount_append, h2]
    refine ⟨?_, .tag "tr".toList :: (evs' ++ .tag "/tr".toList :: evs), ?_, ?_, ?_, .inr ?_⟩
    · intro h
      rw [c1 (h r (by simp)), lex_tag _ _ (by decide) (by decide), ih1 fun r hr => h r (by simp [hr])]
      simp
    · rw [e', lex_tag _ _ (by decide) (by decide), e]
      simp
    · rw [hcount, hsum]; omega
    · intro h
      rw [hcount, hsum]
      by_cases hr : ∃ f ∈ r, ¬ Calm f
      · have := hlt' hr; omega
      · have : ∃ r ∈ rows, ∃ f ∈ r, ¬ Calm f := by
          obtain ⟨q, hq, hf⟩ := h
          rcases List.mem_cons.1 hq with rfl | hq
          · exact absurd hf hr
          · exact ⟨q, hq, hf⟩
        have := hlt this
        omega
    · rcases hend with rfl | ⟨evs'', rfl⟩
      · exact ⟨.tag "tr".toList :: evs', by simp⟩
      · exact ⟨.tag "tr".toList :: (evs' ++ .tag "/tr".toList :: evs''), by simp⟩

/-! ### building the rows -/

theorem changeLast_append {β : Type} (f : β → β) (l : List β) (b : β) : changeLast f (l ++ [b]) = l ++ [f b] := by
  induction l with
  | nil => rfl
  | cons a l ih =>
    cases l with
    | nil => rfl
    | cons c l => rw [List.cons_append, List.cons_append, changeLast, ← List.cons_append, ih]; rfl

theorem build_chars (rows : List (List (List Char))) (r : List (List Char)) (f : List Char) : ∀ g : List Char,
    (f.map HtmlEv.chr).foldl htmlStep (rows ++ [r ++ [g]], .cell) = (rows ++ [r ++ [g ++ f]], .cell) := by
  induction f with
  | nil => intro g; simp
  | cons c f ih =>
    intro g
    rw [List.map_cons, List.foldl_cons]
    have : htmlStep (rows ++ [r ++ [g]], .cell) (.chr c) = (rows ++ [r ++ [g ++ [c]]], .cell) := by
      simp only [htmlStep, if_true, changeLast_append, reduceCtorEq, if_false]
    rw [this, ih]
    simp

theorem build_cells (rows : List (List (List Char))) (cells : List (List Char)) : ∀ r : List (List Char),
    (cells.flatMap fun f => HtmlEv.tag "th".toList :: (f.map .chr ++ [.tag "/th".toList])).foldl htmlStep (rows ++ [r], .out) = (rows ++ [r ++ cells], .out) := by
  induction cells with
  | nil => intro r; simp
  | cons f cells ih =>
    intro r
    rw [List.flatMap_cons, List.foldl_append, List.foldl_cons]
    have e1 : htmlStep (rows ++ [r], .out) (.tag "th".toList) = (rows ++ [r ++ [[]]], .cell) := by
      unfold htmlStep
      rw [if_neg (by simp)]
      show (if "th".toList = "tr".toList then _ else _) = _
      rw [if_neg (by decide), if_pos rfl, changeLast_append]
    rw [e1, List.foldl_append, build_chars]
    have e2 : ([.tag "/th".toList] : List HtmlEv).foldl htmlStep (rows ++ [r ++ [[] ++ f]], .cell) = (rows ++ [r ++ [f]], .out) := by
      rw [List.foldl_cons, List.foldl_nil]
      unfold htmlStep
      rw [if_neg (by simp)]
      show (if "/th".toList = "tr".toList then _ else _) = _
      rw [if_neg (by decide), if_neg (by decide), if_pos (.inl rfl)]
      rfl
    rw [e2, ih]
    simp

theorem build_rows (rows : List (List (List Char))) : ∀ (pre : List (List (List Char))),
    (rows.flatMap fun r => HtmlEv.tag "tr".toList :: ((r.flatMap fun f => .tag "th".toList :: (f.map .chr ++ [.tag "/th".toList])) ++ [.tag "/tr".toList])).foldl htmlStep
      (pre, .out) = (pre ++ rows, .out) := by
  induction rows with
  | nil => intro pre; simp
  | cons r rows ih =>
    intro pre
    rw [List.flatMap_cons, List.foldl_append, List.foldl_cons]
    have e1 : htmlStep (pre, .out) (.tag "tr".toList) = (pre ++ [[]], .out) := by
      unfold htmlStep
      rw [if_neg (by simp)]
      show (if "tr".toList = "tr".toList then _ else _) = _
      rw [if_pos rfl]
    rw [e1, List.foldl_append, build_cells]
    have e2 : ([.tag "/tr".toList] : List HtmlEv).foldl htmlStep (pre ++ [[] ++ r], .out) = (pre ++ [r], .out) := by
      rw [List.foldl_cons, List.foldl_nil]
      unfold htmlStep
      rw [if_neg (by simp)]
      show (if "/tr".toList = "tr".toList then _ else _) = _
      rw [if_neg (by decide), if_neg (by decide), if_pos (.inr rfl)]
      rfl
    rw [e2, ih]
    simp

theorem sum_changeLast {β : Type} (w : β → Nat) (f : β → β) (k : Nat) (hf : ∀ b, w (f b) ≤ w b + k) (l : List β) : ((changeLast f l).map w).sum ≤ (l.map w).sum + k := by
  induction l with
  | nil => simp [changeLast]
  | cons a l ih =>
    cases l with
    | nil => simpa [changeLast] using hf a
    | cons b l =>
      rw [changeLast, List.map_cons, List.sum_cons, List.map_cons, List.sum_cons]
      omega

theorem step_sum (s : HtmlSt) (e : HtmlEv) : cellSum (htmlStep s e).1 ≤ cellSum s.1 + chrCount [e] := by
  unfold htmlStep
  split
  · omega
  · cases e with
    | chr c =>
      have h1 : chrCount [.chr c] = 1 := by simp [chrCount]
      rw [h1]
      dsimp only
      split
      · refine sum_changeLast _ _ 1 ?_ s.1
        intro r
        exact sum_changeLast _ _ 1 (by intro f; simp) r
      · omega
    | tag n =>
      have h1 : chrCount [.tag n] = 0 := by simp [chrCount]
      rw [h1]
      dsimp only
      split
      · simp [cellSum]
      · split
        · refine sum_changeLast _ _ 0 ?_ s.1
          intro r
          simp
        · split
          · simp
          · split <;> simp

theorem build_sum (evs : List HtmlEv) : ∀ s : HtmlSt, cellSum (evs.foldl htmlStep s).1 ≤ cellSum s.1 + chrCount evs := by
  induction evs with
  | nil => intro s; simp [chrCount]
  | cons e evs ih =>
    intro s
    rw [List.foldl_cons]
    have h1 := ih (htmlStep s e)
    have h2 := step_sum s e
    have h3 : chrCount (e :: evs) = chrCount [e] + chrCount evs := chrCount_append [e] evs
    omega

/-- what follows the table is not seen -/
theorem build_after (evs : List HtmlEv) (rows : List (List (List Char))) : evs.foldl htmlStep (rows, .after) = (rows, .after) := by
  induction evs with
  | nil => rfl
  | cons e evs ih => exact ih

theorem sum_le_of {β : Type} (v w : β → Nat) (l : List β) (h : ∀ b, v b ≤ w b) : (l.map v).sum ≤ (l.map w).sum := by
  induction l with
  | nil => simp
  | cons a l ih =>
    rw [List.map_cons, List.map_cons, List.sum_cons, List.sum_cons]
    exact Nat.add_le_add (h a) ih

theorem htmlDecode_length (f : List Char) : (htmlDecode f).length ≤ f.length := by
  fun_induction htmlDecode f <;> simp_all <;> omega

/-- the document: what the rows are shown as -/
theorem shown_rows (rows : List (List (List Char))) (tail : List Char) :
    htmlShown ("<div><table border=1>".toList ++ rows.flatMap htmlRow ++ "</table></div>".toList ++ tail) = rows ↔ ∀ r ∈ rows, ∀ f ∈ r, Calm f ∧ htmlDecode f = f := by
  have e0 : "<div><table border=1>".toList ++ rows.flatMap htmlRow ++ "</table></div>".toList ++ tail =
      '<' :: ("div".toList ++ '>' :: ('<' :: ("table border=1".toList ++ '>' :: (rows.flatMap htmlRow ++ ('<' :: ("/table".toList ++ '>' :: ('<' :: ("/div".toList ++ '>' :: tail)))))))) := by
    simp
  obtain ⟨c1, evs, e, hle, hlt, hend⟩ := lex_rows ('<' :: ("/table".toList ++ '>' :: ('<' :: ("/div".toList ++ '>' :: tail)))) rows
  have hlex : ∀ evs, htmlLex none (rows.flatMap htmlRow ++ ('<' :: ("/table".toList ++ '>' :: ('<' :: ("/div".toList ++ '>' :: tail))))) =
        evs ++ htmlLex none ('<' :: ("/table".toList ++ '>' :: ('<' :: ("/div".toList ++ '>' :: tail)))) →
      htmlShown ("<div><table border=1>".toList ++ rows.flatMap htmlRow ++ "</table></div>".toList ++ tail) = ((evs.foldl htmlStep ([], .out)).1).map fun r => r.map htmlDecode := by
    intro evs he
    unfold htmlShown
    rw [e0, lex_tag _ _ (by decide) (by decide), lex_tag _ _ (by decide) (by decide), he, lex_tag _ _ (by decide) (by decide), lex_tag _ _ (by decide) (by decide)]
    rw [List.foldl_cons, List.foldl_cons]
    have s1 : htmlStep (htmlStep ([], .out) (.tag "div".toList)) (.tag "table border=1".toList) = ([], .out) := by decide
    rw [s1, List.foldl_append, List.foldl_cons]
    have s2 : ∀ s : HtmlSt, htmlStep s (.tag "/table".toList) = (s.1, .after) := by
      intro s
      unfold htmlStep
      split
      · rename_i h; rw [← h]
      · show (if "/table".toList = "tr".toList then _ else _) = _
        rw [if_neg (by decide), if_neg (by decide), if_neg (by decide), if_pos rfl]
    rw [s2, build_after]
  constructor
  · intro h
    have hcalm : ∀ r ∈ rows, ∀ f ∈ r, Calm f := by
      by_contra hcon
      have : ∃ r ∈ rows, ∃ f ∈ r, ¬ Calm f := by
        by_contra hne
        exact hcon fun r hr f hf => by
          by_contra hc
          exact hne ⟨r, hr, f, hf, hc⟩
      have h1 := hlt this
      have h2 := build_sum evs ([], .out)
      rw [hlex evs e] at h
      have h3 : cellSum rows ≤ cellSum (evs.foldl htmlStep ([], .out)).1 := by
        conv => lhs; rw [← h]
        unfold cellSum
        rw [List.map_map]
        refine sum_le_of _ _ _ fun r => ?_
        simp only [Function.comp_def, List.map_map]
        exact sum_le_of _ _ _ fun f => htmlDecode_length f
      have h4 : cellSum ([] : List (List (List Char))) = 0 := rfl
      simp only [h4] at h2
      omega
    rw [hlex _ (c1 hcalm), build_rows] at h
    simp only [List.nil_append] at h
    intro r hr f hf
    refine ⟨hcalm r hr f hf, ?_⟩
    have h1 : ∀ r ∈ rows, r.map htmlDecode = r := by
      have : rows.map (fun r => r.map htmlDecode) = rows.map id := by rw [h, List.map_id]
      exact List.map_inj_left.1 this
    have h2 : r.map htmlDecode = r.map id := by rw [h1 r hr, List.map_id]
    exact List.map_inj_left.1 h2 f hf
  · intro h
    rw [hlex _ (c1 fun r hr f hf => (h r hr f hf).1), build_rows]
    simp only [List.nil_append]
    refine (List.map_congr_left (g := id) fun r hr => ?_).trans (List.map_id _)
    exact (List.map_congr_left (g := id) fun f hf => (h r hr f hf).2).trans (List.map_id _)

/-! ## C138 -/

section
variable {α : Type}

/-- the texts to be shown: the names, then the rows -/
def htmlTexts (ops : DOps α) (r : List (List Char) × List (List (DCell α))) : List (List (List Char)) := r.1 :: r.2.map fun row => row.map (cellText ops)

/-- **C138** in full: the view of a table with columns shows exactly the texts of the names and of the cells. -/
def C138_statement : Prop :=
  ∀ (ops : DOps Nat) (num : Nat → List Char) (width : Nat → Nat) (t : Tbl (List Char) Nat) (slice : Option PySlice) (blanks : Nat) (dtype : Bool) r html, t ≠ [] →
    htmlRows ops num width t slice blanks dtype = .ok r → reprHtml ops num width t slice blanks dtype = .ok html → htmlShown html = htmlTexts ops r

/-- **C138**: a table is shown as it is exactly if no name and no text of a cell has a `<` before a letter, `/`, `!` or `?`, and none has one of the named characters, whatever the lengths of
the columns, the rows that are asked for and the fill value. -/
theorem C138_exact (ops : DOps α) (num : Nat → List Char) (width : Nat → Nat) (t : Tbl (List Char) α) (slice : Option PySlice) (blanks : α) (dtype : Bool)
    (ht : t ≠ []) (r : List (List Char) × List (List (DCell α))) (hr : htmlRows ops num width t slice blanks dtype = .ok r) :
    ∃ html, reprHtml ops num width t slice blanks dtype = .ok html ∧ (htmlShown html = htmlTexts ops r ↔ ∀ row ∈ htmlTexts ops r, ∀ f ∈ row, Calm f ∧ htmlDecode f = f) := by
  refine ⟨"<div><table border=1>".toList ++ (htmlTexts ops r).flatMap htmlRow ++ "</table></div>".toList ++ htmlWarning ops t blanks, ?_, shown_rows _ _⟩
  unfold reprHtml
  have : t.isEmpty = false := by cases t with
    | nil => exact absurd rfl ht
    | cons => rfl
  rw [this, hr]
  rfl

theorem calm_of (f : List Char) (h : '<' ∉ f) : Calm f := by
  induction f with
  | nil => trivial
  | cons c f ih =>
    simp only [List.mem_cons, not_or] at h
    exact ⟨fun hc => h.1 hc.1.symm, ih h.2⟩

theorem decode_of (f : List Char) (h : '&' ∉ f) : htmlDecode f = f := by
  fun_induction htmlDecode f with
  | case1 => simp at h
  | case2 => simp at h
  | case3 => simp at h
  | case4 => simp at h
  | case5 c r _ _ _ _ ih =>
    simp only [List.mem_cons, not_or] at h
    rw [ih h.2]
  | case6 => rfl

/-- **C138** (partial): names and texts without `<` and `&` are shown as they are. Missing: texts with these characters, which are written without escaping. -/
theorem C138_partial (ops : DOps α) (num : Nat → List Char) (width : Nat → Nat) (t : Tbl (List Char) α) (slice : Option PySlice) (blanks : α) (dtype : Bool)
    (ht : t ≠ []) (r : List (List Char) × List (List (DCell α))) (html : List Char) (hr : htmlRows ops num width t slice blanks dtype = .ok r)
    (hh : reprHtml ops num width t slice blanks dtype = .ok html) (h : ∀ row ∈ htmlTexts ops r, ∀ f ∈ row, '<' ∉ f ∧ '&' ∉ f) : htmlShown html = htmlTexts ops r := by
  obtain ⟨html', h1, h2⟩ := C138_exact ops num width t slice blanks dtype ht r hr
  cases h1.symm.trans hh
  exact h2.2 fun row hrow f hf => ⟨calm_of f (h row hrow f hf).1, decode_of f (h row hrow f hf).2⟩

/-- **C138**: the view fails only where the slice has step zero; a table without columns has a view of no cells. -/
theorem C138_total (ops : DOps α) (num : Nat → List Char) (width : Nat → Nat) (t : Tbl (List Char) α) (slice : Option PySlice) (hs : ∀ s, slice = some s → s.step ≠ some 0) (blanks : α)
    (dtype : Bool) : ∃ html, reprHtml ops num width t slice blanks dtype = .ok html ∧ (t = [] → htmlShown html = [[]]) := by
  by_cases ht : t = []
  · subst ht
    exact ⟨_, rfl, fun _ => by decide +kernel⟩
  · obtain ⟨d, m, h1, h2, h3, -⟩ := displayDict_even ops num width t slice hs blanks dtype
    obtain ⟨rows, h4, -⟩ := dictToRows_ok d h2 m h3
    have hr : htmlRows ops num width t slice blanks dtype = .ok (d.map (·.1), rows) := by
      unfold htmlRows
      rw [h1]
      exact h4
    obtain ⟨html, e, -⟩ := C138_exact ops num width t slice blanks dtype ht _ hr
    exact ⟨html, e, fun h => absurd h ht⟩

/-- **C138**: the warning follows the table exactly if the columns differ in length, and it names the fill value. -/
theorem C138_warning (ops : DOps α) (num : Nat → List Char) (width : Nat → Nat) (t : Tbl (List Char) α) (slice : Option PySlice) (blanks : α) (dtype : Bool)
    (ht : t ≠ []) (html : List Char) (hh : reprHtml ops num width t slice blanks dtype = .ok html) :
    ∃ view, html = "<div>".toList ++ view ++ "</div>".toList ++
      (if ∀ c ∈ t, ∀ d ∈ t, colLen c.2 = colLen d.2 then [] else "Warning: Columns have different lengths. ".toList ++ ops.str blanks ++ " is used as fill value.".toList) := by
  unfold reprHtml at hh
  have : t.isEmpty = false := by cases t with
    | nil => exact absurd rfl ht
    | cons => rfl
  rw [this] at hh
  cases hr : htmlRows ops num width t slice blanks dtype with
  | error e => rw [hr] at hh; cases hh
  | ok r =>
    rw [hr] at hh
    cases hh
    refine ⟨"<table border=1>".toList ++ (htmlTexts ops r).flatMap htmlRow ++ "</table>".toList, ?_⟩
    have hw : htmlWarning ops t blanks = (if ∀ c ∈ t, ∀ d ∈ t, colLen c.2 = colLen d.2 then [] else "Warning: Columns have different lengths. ".toList ++ ops.str blanks ++ " is used as fill value.".toList) := by
      unfold htmlWarning
      have key : (t.map fun c => colLen c.2).eraseDups.length = 1 ↔ ∀ c ∈ t, ∀ d ∈ t, colLen c.2 = colLen d.2 := by
        constructor
        · intro h1
          obtain ⟨x, hx⟩ := List.length_eq_one_iff.1 h1
          have hall : ∀ c ∈ t, colLen c.2 = x := by
            intro c hc
            have : colLen c.2 ∈ (t.map fun c => colLen c.2).eraseDups := List.mem_eraseDups.2 (List.mem_map_of_mem hc)
            rw [hx] at this
            exact List.mem_singleton.1 this
          exact fun c hc d hd => (hall c hc).trans (hall d hd).symm
        · intro hn
          obtain ⟨c, t', rfl⟩ := List.exists_cons_of_ne_nil ht
          rw [List.map_cons, List.eraseDups_cons, List.length_cons]
          have : (t'.map fun c => colLen c.2).filter (fun b => !b == colLen c.2) = [] := by
            rw [List.filter_eq_nil_iff]
            intro y hy
            obtain ⟨c', hc', rfl⟩ := List.mem_map.1 hy
            rw [hn c' (List.mem_cons_of_mem _ hc') c List.mem_cons_self]
            simp
          rw [this]
          rfl
      by_cases h : ∀ c ∈ t, ∀ d ∈ t, colLen c.2 = colLen d.2
      · rw [if_pos h, if_neg (not_not.2 (key.2 h))]
      · rw [if_neg h, if_pos (fun h' => h (key.1 h'))]
    rw [← hw]
    simp [htmlTexts]

/-- the operations of `exOps` with the texts `1 < 2 & 3`, `a<b>c` and `</table>` for 2, 3 and 4 -/
def htmlOps : DOps Nat := { exOps with str := fun n => if n = 2 then "1 < 2 & 3".toList else if n = 3 then "a<b>c".toList else if n = 4 then "</table>".toList else exOps.str n }

/-- **C138** (the claim in full is false): the cell `a<b>c` is shown as `ac`. -/
theorem C138_fails : ¬ C138_statement := by
  intro h
  have h1 := h htmlOps (fun n => Nat.toDigits 10 n) (fun _ => 2) [("x".toList, [[3, 5]])] none 0 false
    (["#".toList, "x".toList], [[.text " 0".toList, .val 3], [.text " 1".toList, .val 5]]) _ (by decide) (by decide +kernel) rfl
  revert h1
  decide +kernel

/-- **C138** (effect): the cell `</table>` hides all that follows. -/
theorem C138_effect : ∃ html, reprHtml htmlOps (fun n => Nat.toDigits 10 n) (fun _ => 2) [("x".toList, [[4, 5]])] none 0 false = .ok html ∧
    htmlShown html = [["#".toList, "x".toList], [" 0".toList, []]] := ⟨_, rfl, by decide +kernel⟩

/-- a table of columns of different lengths, with `<` and `&` in a cell, is shown -/
example : ∃ html, reprHtml htmlOps (fun n => Nat.toDigits 10 n) (fun _ => 2) [("x".toList, [[2, 5]]), ("y & z".toList, [[1]])] none 0 false = .ok html ∧
    htmlShown html = [["#", "x", "y & z"], [" 0", "1 < 2 & 3", "missing"], [" 1", "5", "None"]].map fun r => r.map String.toList := ⟨_, rfl, by decide +kernel⟩

end

end Tablite
