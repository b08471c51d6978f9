import Verif.Model.Sql
import Verif.Props.Codec
import Verif.Props.Table
/-!
# C101: export to SQL, read back by a reader of SQL literals
-/

namespace Tablite

variable {O : Type}

/-! ## a reader of SQL (specification) -/

/-- a literal of SQL -/
inductive SqlLit where
  | null
  | num (z : Int)
  | text (t : PyText)
deriving DecidableEq

/-- the rest of a text literal after the opening quote; two quotes stand for one -/
def readQuote : PyText → Option (PyText × PyText)
  | [] => none
  | 39 :: 39 :: r => (readQuote r).map fun x => (39 :: x.1, x.2)
  | 39 :: r => some ([], r)
  | c :: r => (readQuote r).map fun x => (c :: x.1, x.2)

/-- a character of a number -/
def isNumChar (c : Nat) : Bool := c == 45 || isDig c

/-- a number -/
def readNum (t : PyText) : Option (SqlLit × PyText) :=
  match parseIntText (t.takeWhile isNumChar) with
  | .ok z => some (.num z, t.dropWhile isNumChar)
  | .error _ => none

/-- a literal -/
def readLit (t : PyText) : Option (SqlLit × PyText) :=
  if t.head? = some 39 then (readQuote t.tail).map fun x => (.text x.1, x.2)
  else if (txt "NULL").isPrefixOf t then some (.null, t.drop 4)
  else readNum t

/-- literals between `, ` up to a closing bracket -/
def readLits : Nat → PyText → Option (List SqlLit × PyText)
  | 0, _ => none
  | n + 1, t => (readLit t).bind fun x =>
    if (txt ", ").isPrefixOf x.2 then (readLits n (x.2.drop 2)).map fun y => (x.1 :: y.1, y.2)
    else if x.2.head? = some 41 then some ([x.1], x.2.tail)
    else none

/-- rows in brackets between commas -/
def readSqlRows : Nat → PyText → Option (List (List SqlLit) × PyText)
  | 0, _ => none
  | n + 1, t => if t.head? = some 40 then (readLits t.length t.tail).bind fun x =>
      if x.2.head? = some 44 then (readSqlRows n x.2.tail).map fun y => (x.1 :: y.1, y.2) else some ([x.1], x.2)
    else none

/-- a character of a name -/
def isIdent (c : Nat) : Bool := (48 ≤ c && c < 58) || (65 ≤ c && c < 91) || (97 ≤ c && c < 123) || c == 95

/-- columns, each a name and a type, between `, ` up to a closing bracket -/
def readDefs : Nat → PyText → Option (List (PyText × PyText) × PyText)
  | 0, _ => none
  | n + 1, t =>
    let r := (t.dropWhile isIdent).tail
    if (t.dropWhile isIdent).head? = some 32 then
      if (txt ", ").isPrefixOf (r.dropWhile isIdent) then (readDefs n ((r.dropWhile isIdent).drop 2)).map fun y => ((t.takeWhile isIdent, r.takeWhile isIdent) :: y.1, y.2)
      else if (r.dropWhile isIdent).head? = some 41 then some ([(t.takeWhile isIdent, r.takeWhile isIdent)], (r.dropWhile isIdent).tail)
      else none
    else none

/-- a text that has to come next -/
def readText (p t : PyText) : Option PyText := if p.isPrefixOf t then some (t.drop p.length) else none

/-- a script that creates a table and inserts rows: its columns and its rows -/
def readScript (name t : PyText) : Option (List (PyText × PyText) × List (List SqlLit)) :=
  (readText (txt "begin; CREATE TABLE " ++ name ++ txt " (") t).bind fun t =>
  (readDefs t.length t).bind fun cs =>
  (readText (txt "; INSERT INTO " ++ name ++ txt " VALUES ") cs.2).bind fun t =>
  (readSqlRows t.length t).bind fun rs =>
  if rs.2 = txt "; commit;" then some (cs.1, rs.1) else none

/-! ## what is written is read back -/

theorem readText_append (p t : PyText) : readText p (p ++ t) = some t := by
  unfold readText
  rw [if_pos (List.isPrefixOf_iff_prefix.2 ⟨t, rfl⟩), List.drop_left]

/-- spec: a text that SQL and Python write in the same way -/
def PlainText (ops : SqlOps O) (t : PyText) : Prop := ∀ c ∈ t, c ≠ 39 ∧ c ≠ 92 ∧ 32 ≤ c ∧ c ≠ 127 ∧ (128 ≤ c → ops.printable c = true)

/-- spec: a value the export writes as SQL -/
def PlainValue (ops : SqlOps O) : PV O → Prop
  | .int _ => True
  | .str t => PlainText ops t
  | _ => False

/-- spec: the literal of a value -/
def litOf : PV O → SqlLit
  | .int z => .num z
  | .str t => .text t
  | _ => .null

theorem reprChar_plain (ops : SqlOps O) (c : Nat) (h : c ≠ 39 ∧ c ≠ 92 ∧ 32 ≤ c ∧ c ≠ 127 ∧ (128 ≤ c → ops.printable c = true)) : reprChar ops.printable 39 c = [c] := by
  obtain ⟨h1, h2, h3, h4, h5⟩ := h
  unfold reprChar
  rw [if_neg (by omega), if_neg (by omega), if_neg (by omega), if_neg (by omega), if_neg (by omega)]
  by_cases h : c < 127
  · rw [if_pos h]
  · rw [if_neg h, if_pos (h5 (by omega))]

theorem reprText_plain (ops : SqlOps O) (t : PyText) (h : PlainText ops t) : reprText ops.printable t = 39 :: t ++ [39] := by
  unfold reprText
  dsimp only
  rw [if_neg (fun hx => (h 39 hx.1).1 rfl)]
  congr 2
  induction t with
  | nil => rfl
  | cons c t ih =>
    rw [List.flatMap_cons, reprChar_plain ops c (h c (by simp)), ih (fun d hd => h d (List.mem_cons_of_mem _ hd))]
    rfl

theorem readQuote_plain (t r : PyText) (h : ∀ c ∈ t, c ≠ 39) (hr : r.head? ≠ some 39) : readQuote (t ++ 39 :: r) = some (t, r) := by
  induction t with
  | nil =>
    cases r with
    | nil => rfl
    | cons d r =>
      rw [List.nil_append, readQuote]
      intro x hx
      simp only [List.cons.injEq] at hx
      exact hr (by rw [hx.1]; rfl)
  | cons c t ih =>
    have hc := h c (by simp)
    rw [List.cons_append, readQuote, ih (fun d hd => h d (List.mem_cons_of_mem _ hd))]
    · rfl
    · intro x hx; exact absurd hx hc
    · intro hx; exact absurd hx hc

/-- what follows a literal: a comma or a closing bracket -/
def SqlEnd (r : PyText) : Prop := r.head? = some 44 ∨ r.head? = some 41

theorem takeWhile_end (p : Nat → Bool) (t r : PyText) (h : ∀ c ∈ t, p c = true) (hr : ∀ c, r.head? = some c → p c = false) :
    (t ++ r).takeWhile p = t ∧ (t ++ r).dropWhile p = r := by
  rw [List.takeWhile_append_of_pos h, List.dropWhile_append_of_pos h]
  cases r with
  | nil => simp
  | cons c r => rw [List.takeWhile_cons_of_neg (by simp [hr c rfl]), List.dropWhile_cons_of_neg (by simp [hr c rfl])]; simp

theorem intText_ne_nil (z : Int) : intText z ≠ [] := by
  unfold intText
  split_ifs
  · simp
  · exact natText_ne_nil _

theorem readLit_plain (ops : SqlOps O) (v : PV O) (h : PlainValue ops v) (r : PyText) (hr : SqlEnd r) : readLit (sqlCell ops v ++ r) = some (litOf v, r) := by
  cases v <;> simp only [PlainValue] at h
  case int z =>
    show readLit (intText z ++ r) = _
    have hc := intText_chars z
    have e := takeWhile_end isNumChar (intText z) r (by
      intro c hx
      unfold isNumChar isDig
      rcases hc c hx with h | h
      · simp [h]
      · simp only [Bool.or_eq_true, beq_iff_eq, decide_eq_true_eq, Bool.and_eq_true]; omega) (by
      intro c hx
      rcases hr with h | h <;> rw [h] at hx <;> cases hx <;> rfl)
    unfold readLit
    rw [if_neg, if_neg]
    · unfold readNum
      rw [e.1, e.2, parseIntText_intText]
      rfl
    · cases hz : intText z with
      | nil => exact absurd hz (intText_ne_nil z)
      | cons d ds =>
        have := hc d (by simp [hz])
        intro hx
        rw [List.isPrefixOf_iff_prefix] at hx
        obtain ⟨s, hs⟩ := hx
        have : d = 78 := by
          have := congrArg List.head? hs
          simpa [txt] using this.symm
        omega
    · cases hz : intText z with
      | nil => exact absurd hz (intText_ne_nil z)
      | cons d ds =>
        have := hc d (by simp [hz])
        intro hx
        simp only [List.cons_append, List.head?_cons, Option.some.injEq] at hx
        omega
  case str t =>
    show readLit (reprText ops.printable t ++ r) = _
    rw [reprText_plain ops t h]
    unfold readLit
    rw [if_pos (by simp)]
    show (readQuote ((t ++ [39]) ++ r)).map _ = _
    rw [List.append_assoc, List.singleton_append, readQuote_plain t r (fun c hc => (h c hc).1)]
    · rfl
    · rcases hr with h | h <;> rw [h] <;> simp

theorem intercalate_cons2 {α : Type} (s a b : List α) (l : List (List α)) : s.intercalate (a :: b :: l) = a ++ s ++ s.intercalate (b :: l) := by
  simp [List.intercalate, List.intersperse]

theorem readLits_plain (ops : SqlOps O) : ∀ (row : List (PV O)) (n : Nat) (r : PyText), row ≠ [] → (∀ v ∈ row, PlainValue ops v) → row.length ≤ n →
    readLits n ((txt ", ").intercalate (row.map (sqlCell ops)) ++ 41 :: r) = some (row.map litOf, r)
  | [], _, _, h, _, _ => absurd rfl h
  | [v], n + 1, r, _, h, _ => by
    have e : (txt ", ").intercalate ([v].map (sqlCell ops)) = sqlCell ops v := by simp [List.intercalate]
    rw [e, readLits, readLit_plain ops v (h v (by simp)) _ (.inr rfl)]
    rfl
  | v :: w :: row, n + 1, r, _, h, hn => by
    rw [List.map_cons, List.map_cons, intercalate_cons2, readLits, List.append_assoc, List.append_assoc, readLit_plain ops v (h v (by simp)) _ (.inl rfl), Option.bind_some]
    dsimp only
    rw [if_pos (List.isPrefixOf_iff_prefix.2 ⟨_, rfl⟩)]
    rw [show ((txt ", ") ++ ((txt ", ").intercalate (sqlCell ops w :: row.map (sqlCell ops)) ++ 41 :: r)).drop 2 = (txt ", ").intercalate ((w :: row).map (sqlCell ops)) ++ 41 :: r from rfl,
      readLits_plain ops (w :: row) n r (by simp) (fun u hu => h u (List.mem_cons_of_mem _ hu)) (by simpa using hn)]
    rfl

theorem sqlCell_ne_nil (ops : SqlOps O) (v : PV O) (h : PlainValue ops v) : sqlCell ops v ≠ [] := by
  cases v <;> simp only [PlainValue] at h
  case int z => exact intText_ne_nil z
  case str t => simp [sqlCell, reprText]

theorem sqlRow_two (ops : SqlOps O) (row : List (PV O)) (h : 2 ≤ row.length) : sqlRow ops row = 40 :: (txt ", ").intercalate (row.map (sqlCell ops)) ++ [41] := by
  match row, h with
  | v :: w :: row, _ => rfl

theorem intercalate_length (s : PyText) (hs : s ≠ []) : ∀ l : List PyText, l.length ≤ (s.intercalate l).length + 1
  | [] => by simp
  | [a] => by simp
  | a :: b :: l => by
    have := intercalate_length s hs (b :: l)
    rw [intercalate_cons2]
    have := List.length_pos_iff.2 hs
    simp only [List.length_append, List.length_cons] at *
    omega

theorem readSqlRows_plain (ops : SqlOps O) : ∀ (rows : List (List (PV O))) (n : Nat) (r : PyText), rows ≠ [] →
    (∀ row ∈ rows, 2 ≤ row.length ∧ ∀ v ∈ row, PlainValue ops v) → rows.length ≤ n → r.head? ≠ some 44 →
    readSqlRows n ((txt ",").intercalate (rows.map (sqlRow ops)) ++ r) = some (rows.map (·.map litOf), r)
  | [], _, _, h, _, _, _ => absurd rfl h
  | [row], n + 1, r, _, h, _, hr => by
    have e : (txt ",").intercalate ([row].map (sqlRow ops)) = sqlRow ops row := by simp [List.intercalate]
    obtain ⟨h2, hv⟩ := h row (by simp)
    rw [e, sqlRow_two ops row h2, readSqlRows, if_pos (by simp)]
    have := intercalate_length (txt ", ") (by decide +kernel) (row.map (sqlCell ops))
    rw [show ∀ x : PyText, List.tail (40 :: x ++ [41] ++ r : List Nat) = x ++ 41 :: r from fun x => by simp, readLits_plain ops row _ r (by intro hx; subst hx; simp at h2) hv (by
      simp only [List.length_map, List.length_append, List.length_cons] at *; omega), Option.bind_some]
    dsimp only
    rw [if_neg hr]
    rfl
  | row :: row' :: rows, n + 1, r, _, h, hn, hr => by
    obtain ⟨h2, hv⟩ := h row (by simp)
    rw [List.map_cons, List.map_cons, intercalate_cons2, sqlRow_two ops row h2, readSqlRows, if_pos (by simp)]
    have := intercalate_length (txt ", ") (by decide +kernel) (row.map (sqlCell ops))
    rw [show ∀ x y z : PyText, List.tail (40 :: x ++ [41] ++ y ++ z ++ r : List Nat) = x ++ 41 :: (y ++ z ++ r) from fun x y z => by simp,
      readLits_plain ops row _ _ (by intro hx; subst hx; simp at h2) hv (by
        simp only [List.length_map, List.length_append, List.length_cons] at *; omega), Option.bind_some]
    dsimp only
    rw [if_pos (by rfl), show ((txt ",") ++ (txt ",").intercalate (sqlRow ops row' :: rows.map (sqlRow ops)) ++ r).tail = (txt ",").intercalate ((row' :: rows).map (sqlRow ops)) ++ r from rfl,
      readSqlRows_plain ops (row' :: rows) n r (by simp) (fun u hu => h u (List.mem_cons_of_mem _ hu)) (by simpa using hn) hr]
    rfl

/-- spec: a name that needs no quotes -/
def SqlName (n : PyText) : Prop := n ≠ [] ∧ ∀ c ∈ n, isIdent c = true

/-- spec: the type of a column by its values: all int (and there are any), all float, or text -/
def typeOf (vs : List (PV O)) : PyText :=
  if vs ≠ [] ∧ ∀ v ∈ vs, v.type = .int then txt "INTEGER" else if vs ≠ [] ∧ ∀ v ∈ vs, v.type = .float then txt "REAL" else txt "TEXT"

theorem eraseDups_single (l : List PT) (a : PT) : l.eraseDups = [a] ↔ l ≠ [] ∧ ∀ x ∈ l, x = a := by
  cases l with
  | nil => simp
  | cons b l =>
    rw [List.eraseDups_cons]
    constructor
    · intro h
      simp only [List.cons.injEq] at h
      obtain ⟨rfl, h⟩ := h
      refine ⟨by simp, ?_⟩
      intro x hx
      rcases List.mem_cons.1 hx with h' | h'
      · exact h'
      · refine Decidable.byContradiction fun hne => ?_
        have : x ∈ (l.filter fun c => !c == b).eraseDups := List.mem_eraseDups.2 (by simp [h', hne])
        rw [h] at this
        exact absurd this (by simp)
    · rintro ⟨-, h⟩
      have hb := h b (by simp)
      subst hb
      have : (l.filter fun c => !c == b) = [] := by
        rw [List.filter_eq_nil_iff]
        intro c hc
        simp [h c (List.mem_cons_of_mem _ hc)]
      rw [this]
      rfl

/-- the type written for a column is the type of its values -/
theorem C101_types (c : PyText × Pages (PV O)) : sqlDef c = c.1 ++ 32 :: typeOf (colIter c.2) := by
  unfold sqlDef typeOf
  congr 2
  have key := eraseDups_single ((colIter c.2).map PV.type)
  generalize ((colIter c.2).map PV.type).eraseDups = l at key
  have key' : ∀ a, l = [a] ↔ colIter c.2 ≠ [] ∧ ∀ v ∈ colIter c.2, v.type = a := by
    intro a
    rw [key a]
    simp
  have k1 := key' .int
  have k2 := key' .float
  simp only [← k1, ← k2]
  clear key key' k1 k2
  unfold sqlType
  split
  · simp
  · simp
  · rename_i h1 h2
    rw [if_neg h1, if_neg h2]

theorem typeOf_ident (vs : List (PV O)) : ∀ c ∈ typeOf vs, isIdent c = true := by
  unfold typeOf
  split_ifs <;> decide +kernel

theorem readDefs_plain : ∀ (t : Tbl PyText (PV O)) (n : Nat) (r : PyText), t ≠ [] → (∀ c ∈ t, SqlName c.1) → t.length ≤ n →
    readDefs n ((txt ", ").intercalate (t.map sqlDef) ++ 41 :: r) = some (t.map fun c => (c.1, typeOf (colIter c.2)), r)
  | [], _, _, h, _, _ => absurd rfl h
  | [c], n + 1, r, _, h, _ => by
    have e : (txt ", ").intercalate ([c].map sqlDef) = sqlDef c := by simp [List.intercalate]
    have e1 := takeWhile_end isIdent c.1 (32 :: (typeOf (colIter c.2) ++ 41 :: r)) (h c (by simp)).2 (by intro d hd; cases hd; rfl)
    have e2 := takeWhile_end isIdent (typeOf (colIter c.2)) (41 :: r) (typeOf_ident _) (by intro d hd; cases hd; rfl)
    rw [e, C101_types, readDefs, List.append_assoc, List.cons_append]
    rw [e1.1, e1.2, if_pos (by simp), List.tail_cons, e2.1, e2.2, if_neg (by simp [txt, List.isPrefixOf]), if_pos (by simp)]
    rfl
  | c :: d :: t, n + 1, r, _, h, hn => by
    have e1 := takeWhile_end isIdent c.1 (32 :: (typeOf (colIter c.2) ++ (txt ", " ++ ((txt ", ").intercalate (sqlDef d :: t.map sqlDef) ++ 41 :: r)))) (h c (by simp)).2 (by intro d hd; cases hd; rfl)
    have e2 := takeWhile_end isIdent (typeOf (colIter c.2)) (txt ", " ++ ((txt ", ").intercalate (sqlDef d :: t.map sqlDef) ++ 41 :: r)) (typeOf_ident _) (by intro d hd; cases hd; rfl)
    rw [List.map_cons, List.map_cons, intercalate_cons2, C101_types, readDefs]
    simp only [List.append_assoc, List.cons_append]
    rw [e1.1, e1.2, if_pos (by simp), List.tail_cons, e2.1, e2.2, if_pos (List.isPrefixOf_iff_prefix.2 ⟨_, rfl⟩)]
    rw [show ((txt ", ") ++ ((txt ", ").intercalate (sqlDef d :: t.map sqlDef) ++ 41 :: r)).drop 2 = (txt ", ").intercalate ((d :: t).map sqlDef) ++ 41 :: r from rfl,
      readDefs_plain (d :: t) n r (by simp) (fun u hu => h u (List.mem_cons_of_mem _ hu)) (by simpa using hn)]
    rfl

/-- spec: the rows of a table, with missing values at the end of short columns -/
def sqlRows (t : Tbl PyText (PV O)) : List (List (PV O)) := (List.range (tblLen t)).map fun i => t.map fun c => (colIter c.2).getD i .none

/-- the full claim: a script of a table of integers, texts and missing values creates the columns and inserts the rows -/
def C101_statement : Prop := ∀ (ops : SqlOps Nat) (name : PyText) (t : Tbl PyText (PV Nat)), SqlName name → t ≠ [] → (∀ c ∈ t, SqlName c.1) → 0 < tblLen t →
  (∀ c ∈ t, ∀ v ∈ colIter c.2, v.type = .none ∨ v.type = .int ∨ v.type = .str) →
  ∃ s, toSql ops name t = .ok s ∧ readScript name s = some (t.map fun c => (c.1, typeOf (colIter c.2)), (sqlRows t).map (·.map litOf))

/-- What holds: a table of two or more columns of equal length, of integers and of texts of printable characters without `'` and `\`,
is written as a script that creates these columns and inserts these rows. Missing: None, one column, apostrophes, backslashes, other characters and types. -/
theorem C101_partial (ops : SqlOps O) (name : PyText) (t : Tbl PyText (PV O)) (h2 : 2 ≤ t.length) (hn : ∀ c ∈ t, SqlName c.1)
    (hrect : ∀ c ∈ t, (colIter c.2).length = tblLen t) (hpos : 0 < tblLen t) (hv : ∀ c ∈ t, ∀ v ∈ colIter c.2, PlainValue ops v) :
    ∃ s, toSql ops name t = .ok s ∧ readScript name s = some (t.map fun c => (c.1, typeOf (colIter c.2)), (sqlRows t).map (·.map litOf)) := by
  have ht : t ≠ [] := by intro hx; subst hx; simp at h2
  refine ⟨_, by unfold toSql; rw [C15_rows]; rfl, ?_⟩
  rw [show ((List.range (tblLen t)).map fun i => t.map fun c => (colIter c.2).getD i PV.none) = sqlRows t from rfl]
  have hrows : ∀ row ∈ sqlRows t, 2 ≤ row.length ∧ ∀ v ∈ row, PlainValue ops v := by
    intro row hrow
    obtain ⟨i, hi, rfl⟩ := List.mem_map.1 hrow
    refine ⟨by simpa using h2, ?_⟩
    intro v hvm
    obtain ⟨c, hc, rfl⟩ := List.mem_map.1 hvm
    have hl := hrect c hc
    have hi' : i < (colIter c.2).length := by rw [hl]; exact List.mem_range.1 hi
    rw [List.getD_eq_getElem?_getD, List.getElem?_eq_getElem hi', Option.getD_some]
    exact hv c hc _ (List.getElem_mem hi')
  have hne : sqlRows t ≠ [] := by
    intro hx
    have := congrArg List.length hx
    simp [sqlRows] at this
    omega
  unfold readScript
  rw [show ∀ D E F : PyText, (txt "begin; CREATE TABLE " ++ name ++ txt " (" ++ D ++ txt "); INSERT INTO " ++ name ++ txt " VALUES " ++ E ++ F)
      = (txt "begin; CREATE TABLE " ++ name ++ txt " (") ++ (D ++ 41 :: ((txt "; INSERT INTO " ++ name ++ txt " VALUES ") ++ (E ++ F))) from by
    intro D E F
    rw [show txt "); INSERT INTO " = 41 :: txt "; INSERT INTO " from by decide +kernel]
    simp only [List.append_assoc, List.cons_append], readText_append, Option.bind_some, readDefs_plain t _ _ ht hn, Option.bind_some]
  · dsimp only
    rw [readText_append, Option.bind_some, readSqlRows_plain ops (sqlRows t) _ _ hne hrows]
    · rw [Option.bind_some, if_pos rfl]
    · have := intercalate_length (txt ",") (by decide +kernel) ((sqlRows t).map (sqlRow ops))
      have e : (txt "; commit;").length = 9 := by decide +kernel
      simp only [List.length_map, List.length_append] at *
      omega
    · decide +kernel
  · have := intercalate_length (txt ", ") (by decide +kernel) (t.map sqlDef)
    simp only [List.length_map, List.length_append, List.length_cons] at *
    omega

/-- a runtime in which every character beyond ASCII is printable -/
def sqlOps0 : SqlOps Nat := ⟨fun _ => true, fun _ => txt "None"⟩

/-- the script of one row of the table with columns `a` and `b` -/
def sqlPair (x y : PV Nat) : Tbl PyText (PV Nat) := [(txt "a", [[x]]), (txt "b", [[y]])]

theorem sqlPair_fails (x y : PV Nat) (s : PyText) (res : Option (List (PyText × PyText) × List (List SqlLit))) (e : toSql sqlOps0 (txt "t") (sqlPair x y) = .ok s)
    (hr : readScript (txt "t") s = res) (hx : x.type = .none ∨ x.type = .int ∨ x.type = .str) (hy : y.type = .none ∨ y.type = .int ∨ y.type = .str)
    (hne : res ≠ some ((sqlPair x y).map fun c => (c.1, typeOf (colIter c.2)), (sqlRows (sqlPair x y)).map (·.map litOf))) : ¬ C101_statement := by
  intro h
  obtain ⟨s', e', r'⟩ := h sqlOps0 (txt "t") (sqlPair x y) (by unfold SqlName; decide +kernel) (by simp [sqlPair])
    (by intro c hc; simp only [sqlPair, List.mem_cons, List.not_mem_nil, or_false] at hc; rcases hc with rfl | rfl
        · exact (by unfold SqlName; decide +kernel : SqlName (txt "a"))
        · exact (by unfold SqlName; decide +kernel : SqlName (txt "b")))
    (by show 0 < 1; decide) (by
      intro c hc v hv
      simp only [sqlPair, List.mem_cons, List.not_mem_nil, or_false] at hc
      rcases hc with rfl | rfl
      · have : v ∈ [x] := hv
        rw [List.mem_singleton.1 this]; exact hx
      · have : v ∈ [y] := hv
        rw [List.mem_singleton.1 this]; exact hy)
  rw [e] at e'
  cases e'
  exact hne (hr.symm.trans r')

/-- None is written as the text `'NULL'` -/
theorem C101_fails : ¬ C101_statement :=
  sqlPair_fails .none (.int 1) (txt "begin; CREATE TABLE t (a TEXT, b INTEGER); INSERT INTO t VALUES ('NULL', 1); commit;")
    (some ([(txt "a", txt "TEXT"), (txt "b", txt "INTEGER")], [[.text (txt "NULL"), .num 1]])) (by decide +kernel) (by decide +kernel) (.inl rfl) (.inr (.inl rfl)) (by decide +kernel)

/-- a text with an apostrophe is written in double quotes, which are not the quotes of a text in SQL -/
theorem C101_fails_apostrophe : ¬ C101_statement :=
  sqlPair_fails (.str (txt "it's")) (.int 1) (txt "begin; CREATE TABLE t (a TEXT, b INTEGER); INSERT INTO t VALUES (\"it's\", 1); commit;")
    none (by decide +kernel) (by decide +kernel) (.inr (.inr rfl)) (.inr (.inl rfl)) (by decide +kernel)

/-- a backslash is written twice, and read twice -/
theorem C101_fails_backslash : ¬ C101_statement :=
  sqlPair_fails (.str (txt "\\")) (.int 1) (txt "begin; CREATE TABLE t (a TEXT, b INTEGER); INSERT INTO t VALUES ('\\\\', 1); commit;")
    (some ([(txt "a", txt "TEXT"), (txt "b", txt "INTEGER")], [[.text (txt "\\\\"), .num 1]])) (by decide +kernel) (by decide +kernel) (.inr (.inr rfl)) (.inr (.inl rfl)) (by decide +kernel)

/-- no script of a table of one column and at least one row can be read, whatever its integers and plain texts: each row has a comma before the bracket -/
theorem C101_fails_single (ops : SqlOps O) (name cname : PyText) (c : Pages (PV O)) (hn : SqlName cname) (hpos : colIter c ≠ []) (hv : ∀ v ∈ colIter c, PlainValue ops v) :
    ∃ s, toSql ops name [(cname, c)] = .ok s ∧ readScript name s = none := by
  refine ⟨_, by unfold toSql; rw [C15_rows]; rfl, ?_⟩
  have hl : tblLen [(cname, c)] = (colIter c).length := tblLen_rect [(cname, c)] _ (by intro d hd; rw [List.mem_singleton.1 hd, colLen_eq, colIter_eq]) (by simp)
  obtain ⟨v, vs, hvs⟩ := List.exists_cons_of_ne_nil hpos
  have hrows : ∃ rows, ((List.range (tblLen [(cname, c)])).map fun i => [(cname, c)].map fun c => (colIter c.2).getD i PV.none) = [v] :: rows := by
    rw [hl, hvs, List.length_cons, List.range_succ_eq_map, List.map_cons]
    refine ⟨_, congrArg (· :: _) ?_⟩
    simp [hvs]
  obtain ⟨rows, hrows⟩ := hrows
  rw [hrows]
  obtain ⟨x, hx⟩ : ∃ x, (txt ",").intercalate (([v] :: rows).map (sqlRow ops)) = (40 :: sqlCell ops v ++ [44, 41]) ++ x := by
    cases rows with
    | nil => exact ⟨[], by simp [List.intercalate, sqlRow]⟩
    | cons r rows =>
      rw [List.map_cons, List.map_cons, intercalate_cons2, List.append_assoc]
      exact ⟨_, rfl⟩
  rw [hx]
  unfold readScript
  rw [show ∀ D E F : PyText, (txt "begin; CREATE TABLE " ++ name ++ txt " (" ++ D ++ txt "); INSERT INTO " ++ name ++ txt " VALUES " ++ E ++ F)
      = (txt "begin; CREATE TABLE " ++ name ++ txt " (") ++ (D ++ 41 :: ((txt "; INSERT INTO " ++ name ++ txt " VALUES ") ++ (E ++ F))) from by
    intro D E F
    rw [show txt "); INSERT INTO " = 41 :: txt "; INSERT INTO " from by decide +kernel]
    simp only [List.append_assoc, List.cons_append], readText_append, Option.bind_some, readDefs_plain _ _ _ (by simp) (by simpa using hn), Option.bind_some]
  · dsimp only
    rw [readText_append, Option.bind_some]
    have key : ∀ (n : Nat) (y : PyText), readSqlRows n (40 :: sqlCell ops v ++ [44, 41] ++ x ++ y) = none := by
      intro n y
      cases n with
      | zero => rfl
      | succ n =>
        rw [readSqlRows, if_pos (by simp), show ∀ u : PyText, List.tail (40 :: u ++ [44, 41] ++ x ++ y : List Nat) = u ++ 44 :: 41 :: (x ++ y) from fun u => by simp]
        have : ∀ m, readLits m (sqlCell ops v ++ 44 :: 41 :: (x ++ y)) = none := by
          intro m
          cases m with
          | zero => rfl
          | succ m =>
            rw [readLits, readLit_plain ops v (hv v (by simp [hvs])) _ (.inl rfl), Option.bind_some]
            dsimp only
            rw [if_neg (by simp [txt, List.isPrefixOf]), if_neg (by simp)]
        rw [this]
        rfl
    rw [key]
    rfl
  · have := List.length_pos_iff.2 hn.1
    simp only [sqlDef, List.map_cons, List.map_nil, List.length_cons, List.length_nil, List.length_append]
    omega

/-- the hypotheses of `C101_partial` hold of a table of texts (with a blank, a comma, a bracket, a double quote and a letter beyond ASCII) and integers -/
example : ∃ s, toSql sqlOps0 (txt "t1") [(txt "name", [[.str (txt "é, \"b\")")], [.str []]]), (txt "n", [[.int (-12), .int 0]])] = .ok s ∧
    readScript (txt "t1") s = some ([(txt "name", txt "TEXT"), (txt "n", txt "INTEGER")], [[.text (txt "é, \"b\")"), .num (-12)], [.text [], .num 0]]) := by
  obtain ⟨s, e, r⟩ := C101_partial sqlOps0 (txt "t1") [(txt "name", [[.str (txt "é, \"b\")")], [.str []]]), (txt "n", [[.int (-12), .int 0]])]
    (by decide) (by unfold SqlName; decide +kernel) (by decide +kernel) (by decide +kernel) (by
      intro c hc v hv
      simp only [List.mem_cons, List.not_mem_nil, or_false] at hc
      rcases hc with rfl | rfl
      · have : v ∈ [PV.str (txt "é, \"b\")"), .str []] := hv
        simp only [List.mem_cons, List.not_mem_nil, or_false] at this
        rcases this with rfl | rfl <;> (unfold PlainValue PlainText; decide +kernel)
      · have : v ∈ [PV.int (-12), .int 0] := hv
        simp only [List.mem_cons, List.not_mem_nil, or_false] at this
        rcases this with rfl | rfl <;> trivial)
  exact ⟨s, e, r.trans (by decide +kernel)⟩

end Tablite
