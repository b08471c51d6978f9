import Verif.Props.Sql
import Mathlib.Tactic.ByContra
/-!
# C101: exactly which tables are written as a script that creates and inserts them
-/

namespace Tablite

variable {O : Type}

theorem hexText_length : ∀ k n : Nat, (hexText k n).length = k
  | 0, _ => rfl
  | k + 1, n => by rw [hexText, List.length_append, hexText_length k]; rfl

theorem hexText_quote : ∀ k n : Nat, 39 ∉ hexText k n
  | 0, _ => by simp [hexText]
  | k + 1, n => by
    rw [hexText, List.mem_append, not_or]
    refine ⟨hexText_quote k _, ?_⟩
    rw [List.mem_singleton]
    split <;> omega

/-- a character that is not an apostrophe is written without apostrophes -/
theorem reprChar_quote (printable : Nat → Bool) (c : Nat) (hc : c ≠ 39) : 39 ∉ reprChar printable 39 c := by
  have hx := hexText_quote
  unfold reprChar
  split_ifs <;> simp [hx] <;> omega

theorem reprChars_quote (printable : Nat → Bool) (t : PyText) (ht : 39 ∉ t) : 39 ∉ t.flatMap (reprChar printable 39) := by
  rw [List.mem_flatMap]
  rintro ⟨c, hc, h⟩
  exact reprChar_quote printable c (fun hx => ht (hx ▸ hc)) h

theorem reprChar_pos (printable : Nat → Bool) (c : Nat) : 1 ≤ (reprChar printable 39 c).length := by
  unfold reprChar
  split_ifs <;> simp

theorem reprChar_one (printable : Nat → Bool) (c : Nat) (h : (reprChar printable 39 c).length = 1) :
    c ≠ 39 ∧ c ≠ 92 ∧ 32 ≤ c ∧ c ≠ 127 ∧ (128 ≤ c → printable c = true) := by
  unfold reprChar at h
  split_ifs at h with h1 h2 h3 h4 h5 h6 h7 h8 h9 <;> simp [hexText_length] at h
  · refine ⟨by omega, by omega, by omega, by omega, by omega⟩
  · exact ⟨by omega, by omega, by omega, by omega, fun _ => h7⟩

theorem reprChars_le (printable : Nat → Bool) (t : PyText) : t.length ≤ (t.flatMap (reprChar printable 39)).length := by
  induction t with
  | nil => simp
  | cons c t ih =>
    have := reprChar_pos printable c
    rw [List.flatMap_cons, List.length_append, List.length_cons]
    omega

theorem reprChars_eq (printable : Nat → Bool) (t : PyText) (h : (t.flatMap (reprChar printable 39)).length = t.length) :
    ∀ c ∈ t, c ≠ 39 ∧ c ≠ 92 ∧ 32 ≤ c ∧ c ≠ 127 ∧ (128 ≤ c → printable c = true) := by
  induction t with
  | nil => simp
  | cons c t ih =>
    have h1 := reprChar_pos printable c
    have h2 := reprChars_le printable t
    rw [List.flatMap_cons, List.length_append, List.length_cons] at h
    intro d hd
    rcases List.mem_cons.1 hd with rfl | hd
    · exact reprChar_one printable _ (by omega)
    · exact ih (by omega) d hd

/-- what stands before the first apostrophe is read -/
theorem readQuote_prefix : ∀ (u w x r : PyText), 39 ∉ u → readQuote (u ++ w) = some (x, r) → u <+: x
  | [], _, _, _, _, _ => List.nil_prefix
  | c :: u, w, x, r, hu, h => by
    have hc : c ≠ 39 := fun hx => hu (by simp [hx])
    rw [List.cons_append, readQuote] at h
    · cases e : readQuote (u ++ w) with
      | none => rw [e] at h; exact absurd h (by simp)
      | some y =>
        rw [e] at h
        have hx : c :: y.1 = x := congrArg Prod.fst (Option.some.inj h)
        obtain ⟨z, hz⟩ := readQuote_prefix u w y.1 y.2 (fun hm => hu (List.mem_cons_of_mem _ hm)) e
        exact ⟨z, by rw [← hx, ← hz]; rfl⟩
    · intro s hx; exact absurd hx hc
    · exact hc

/-- a value that is read as itself is plain -/
theorem readLit_conv (ops : SqlOps O) (v : PV O) (hv : v.type = .none ∨ v.type = .int ∨ v.type = .str) (r r' : PyText) (hr : SqlEnd r)
    (h : readLit (sqlCell ops v ++ r) = some (litOf v, r')) : PlainValue ops v := by
  cases v <;> simp [PV.type] at hv
  case none =>
    have hp : PlainValue ops (.str (txt "NULL") : PV O) := by
      show PlainText ops (txt "NULL")
      have : ∀ c ∈ txt "NULL", c ≠ 39 ∧ c ≠ 92 ∧ 32 ≤ c ∧ c ≠ 127 ∧ c < 128 := by decide +kernel
      intro c hc
      obtain ⟨h1, h2, h3, h4, h5⟩ := this c hc
      exact ⟨h1, h2, h3, h4, fun h => by omega⟩
    have e := readLit_plain ops _ hp r hr
    rw [show sqlCell ops (.none : PV O) = sqlCell ops (.str (txt "NULL")) from rfl, e] at h
    exact absurd (congrArg Prod.fst (Option.some.inj h)) (by simp [litOf])
  case int z => trivial
  case str t =>
    show PlainText ops t
    rw [show sqlCell ops (.str t : PV O) = reprText ops.printable t from rfl] at h
    unfold reprText at h
    dsimp only at h
    by_cases hq : 39 ∈ t ∧ 34 ∉ t
    · rw [if_pos hq] at h
      unfold readLit readNum at h
      rw [if_neg (by simp), if_neg (by simp [txt, List.isPrefixOf])] at h
      have e : (34 :: t.flatMap (reprChar ops.printable 34) ++ [34] ++ r : PyText).takeWhile isNumChar = [] := by
        rw [List.cons_append, List.cons_append, List.takeWhile_cons_of_neg (by decide)]
      rw [e] at h
      exact absurd h (by simp [parseIntText, parseNatText, Except.bind])
    · rw [if_neg hq] at h
      unfold readLit at h
      rw [if_pos (by simp)] at h
      rw [show List.tail (39 :: t.flatMap (reprChar ops.printable 39) ++ [39] ++ r : PyText) = t.flatMap (reprChar ops.printable 39) ++ 39 :: r from by simp] at h
      by_cases ht : 39 ∈ t
      · exfalso
        obtain ⟨p, s, rfl, hp⟩ := List.eq_append_cons_of_mem ht
        rw [List.flatMap_append, List.flatMap_cons, show reprChar ops.printable 39 39 = [92] ++ [39] from by simp [reprChar]] at h
        rw [show p.flatMap (reprChar ops.printable 39) ++ ([92] ++ [39] ++ s.flatMap (reprChar ops.printable 39)) ++ 39 :: r
          = (p.flatMap (reprChar ops.printable 39) ++ [92]) ++ (39 :: (s.flatMap (reprChar ops.printable 39) ++ 39 :: r)) from by simp] at h
        have hu : 39 ∉ p.flatMap (reprChar ops.printable 39) ++ [92] := by
          rw [List.mem_append, not_or]
          exact ⟨reprChars_quote ops.printable p hp, by simp⟩
        cases e : readQuote ((p.flatMap (reprChar ops.printable 39) ++ [92]) ++ (39 :: (s.flatMap (reprChar ops.printable 39) ++ 39 :: r))) with
        | none => rw [e] at h; exact absurd h (by simp)
        | some y =>
          rw [e] at h
          have hy : y.1 = p ++ 39 :: s := by
            have := congrArg Prod.fst (Option.some.inj h)
            simpa [litOf] using this
          obtain ⟨z, hz⟩ := readQuote_prefix _ _ y.1 y.2 hu e
          have hl := reprChars_le ops.printable p
          have hm : (p ++ 39 :: s)[p.length]? = some 39 := by simp
          rw [← hy, ← hz, List.getElem?_append_left (by rw [List.length_append, List.length_singleton]; omega)] at hm
          exact hu (List.mem_of_getElem? hm)
      · rw [readQuote_plain _ r (fun c hc hx => reprChars_quote ops.printable t ht (by rw [hx] at hc; exact hc)) (by rcases hr with h | h <;> rw [h] <;> simp)] at h
        have e := congrArg Prod.fst (Option.some.inj h)
        simp only [litOf, SqlLit.text.injEq] at e
        exact reprChars_eq ops.printable t (congrArg List.length e)

/-- spec: the values the claim speaks of -/
def SqlValue (v : PV O) : Prop := v.type = .none ∨ v.type = .int ∨ v.type = .str

theorem readLits_conv (ops : SqlOps O) : ∀ (row : List (PV O)) (n : Nat) (r r' : PyText), row ≠ [] → (∀ v ∈ row, SqlValue v) →
    readLits n ((txt ", ").intercalate (row.map (sqlCell ops)) ++ 41 :: r) = some (row.map litOf, r') → ∀ v ∈ row, PlainValue ops v
  | [], _, _, _, h, _, _ => absurd rfl h
  | _ :: _, 0, _, _, _, _, h => absurd h (by simp [readLits])
  | [v], n + 1, r, r', _, hv, h => by
    have e : (txt ", ").intercalate ([v].map (sqlCell ops)) = sqlCell ops v := by simp [List.intercalate]
    rw [e, readLits] at h
    cases e1 : readLit (sqlCell ops v ++ 41 :: r) with
    | none => rw [e1] at h; exact absurd h (by simp)
    | some x =>
      rw [e1, Option.bind_some] at h
      have hx : x.1 = litOf v := by
        split_ifs at h
        · cases e2 : readLits n (x.2.drop 2) with
          | none => rw [e2] at h; exact absurd h (by simp)
          | some y => rw [e2] at h; exact (List.cons.inj (congrArg Prod.fst (Option.some.inj h))).1
        · exact (List.cons.inj (congrArg Prod.fst (Option.some.inj h))).1
      intro u hu
      rw [List.mem_singleton.1 hu]
      exact readLit_conv ops v (hv v (by simp)) _ x.2 (.inr rfl) (by rw [e1, ← hx])
  | v :: w :: row, n + 1, r, r', _, hv, h => by
    rw [List.map_cons, List.map_cons, intercalate_cons2, readLits, List.append_assoc, List.append_assoc] at h
    have hend : SqlEnd (txt ", " ++ ((txt ", ").intercalate (sqlCell ops w :: row.map (sqlCell ops)) ++ 41 :: r)) := .inl rfl
    cases e1 : readLit (sqlCell ops v ++ (txt ", " ++ ((txt ", ").intercalate (sqlCell ops w :: row.map (sqlCell ops)) ++ 41 :: r))) with
    | none => rw [e1] at h; exact absurd h (by simp)
    | some x =>
      rw [e1, Option.bind_some] at h
      have hx : x.1 = litOf v := by
        split_ifs at h
        · cases e2 : readLits n (x.2.drop 2) with
          | none => rw [e2] at h; exact absurd h (by simp)
          | some y => rw [e2] at h; exact (List.cons.inj (congrArg Prod.fst (Option.some.inj h))).1
        · exact (List.cons.inj (congrArg Prod.fst (Option.some.inj h))).1
      have hp : PlainValue ops v := readLit_conv ops v (hv v (by simp)) _ x.2 hend (by rw [e1, ← hx])
      rw [readLit_plain ops v hp _ hend] at e1
      have hx2 := congrArg Prod.snd (Option.some.inj e1)
      dsimp only at hx2
      rw [← hx2, if_pos (List.isPrefixOf_iff_prefix.2 ⟨_, rfl⟩),
        show ((txt ", ") ++ ((txt ", ").intercalate (sqlCell ops w :: row.map (sqlCell ops)) ++ 41 :: r)).drop 2 = (txt ", ").intercalate ((w :: row).map (sqlCell ops)) ++ 41 :: r from rfl] at h
      cases e2 : readLits n ((txt ", ").intercalate ((w :: row).map (sqlCell ops)) ++ 41 :: r) with
      | none => rw [e2] at h; exact absurd h (by simp)
      | some y =>
        rw [e2] at h
        have hy : y.1 = (w :: row).map litOf := (List.cons.inj (congrArg Prod.fst (Option.some.inj h))).2
        intro u hu
        rcases List.mem_cons.1 hu with rfl | hu
        · exact hp
        · exact readLits_conv ops (w :: row) n r y.2 (by simp) (fun u hu => hv u (List.mem_cons_of_mem _ hu)) (by rw [e2, ← hy]) u hu

/-- a row that is read as itself has two or more values, and they are plain -/
theorem readRow_conv (ops : SqlOps O) (row : List (PV O)) (n : Nat) (r r' : PyText) (hne : row ≠ []) (hv : ∀ v ∈ row, SqlValue v)
    (h : readLits n ((sqlRow ops row).tail ++ r) = some (row.map litOf, r')) : 2 ≤ row.length ∧ ∀ v ∈ row, PlainValue ops v := by
  match row, hne with
  | [v], _ =>
    exfalso
    rw [show (sqlRow ops [v]).tail ++ r = sqlCell ops v ++ 44 :: 41 :: r from by simp [sqlRow]] at h
    cases n with
    | zero => exact absurd h (by simp [readLits])
    | succ n =>
      rw [readLits] at h
      cases e1 : readLit (sqlCell ops v ++ 44 :: 41 :: r) with
      | none => rw [e1] at h; exact absurd h (by simp)
      | some x =>
        rw [e1, Option.bind_some] at h
        have hx : x.1 = litOf v := by
          split_ifs at h
          · cases e2 : readLits n (x.2.drop 2) with
            | none => rw [e2] at h; exact absurd h (by simp)
            | some y => rw [e2] at h; exact (List.cons.inj (congrArg Prod.fst (Option.some.inj h))).1
          · exact (List.cons.inj (congrArg Prod.fst (Option.some.inj h))).1
        have hp : PlainValue ops v := readLit_conv ops v (hv v (by simp)) _ x.2 (.inl rfl) (by rw [e1, ← hx])
        rw [readLit_plain ops v hp _ (.inl rfl)] at e1
        have hx2 := congrArg Prod.snd (Option.some.inj e1)
        dsimp only at hx2
        rw [← hx2, if_neg (by simp [txt, List.isPrefixOf]), if_neg (by simp)] at h
        exact absurd h (by simp)
  | v :: w :: row, _ =>
    refine ⟨by simp, ?_⟩
    rw [sqlRow_two ops _ (by simp)] at h
    exact readLits_conv ops (v :: w :: row) n r r' (by simp) hv (by rw [← h]; simp)

theorem readSqlRows_conv (ops : SqlOps O) : ∀ (rows : List (List (PV O))) (n : Nat) (r r' : PyText),
    (∀ row ∈ rows, row ≠ [] ∧ ∀ v ∈ row, SqlValue v) →
    readSqlRows n ((txt ",").intercalate (rows.map (sqlRow ops)) ++ r) = some (rows.map (·.map litOf), r') →
    ∀ row ∈ rows, 2 ≤ row.length ∧ ∀ v ∈ row, PlainValue ops v
  | [], _, _, _, _, _ => by simp
  | _ :: _, 0, _, _, _, h => absurd h (by simp [readSqlRows])
  | row :: rows, n + 1, r, r', hv, h => by
    obtain ⟨w, hw⟩ : ∃ w, (txt ",").intercalate ((row :: rows).map (sqlRow ops)) ++ r = sqlRow ops row ++ w ∧
        (rows ≠ [] → w = 44 :: ((txt ",").intercalate (rows.map (sqlRow ops)) ++ r)) := by
      cases rows with
      | nil => exact ⟨r, by simp [List.intercalate], fun hx => absurd rfl hx⟩
      | cons b rows => exact ⟨_, by rw [List.map_cons, List.map_cons, intercalate_cons2, List.append_assoc, List.append_assoc]; rfl, fun _ => rfl⟩
    rw [hw.1] at h
    have hh : ∃ y, sqlRow ops row = 40 :: y := by
      match row with
      | [] => exact ⟨_, rfl⟩
      | [v] => exact ⟨_, rfl⟩
      | v :: w :: row => exact ⟨_, rfl⟩
    obtain ⟨y, hy⟩ := hh
    have hrow := readRow_conv ops row (sqlRow ops row ++ w).length w
    rw [readSqlRows, if_pos (by simp [hy]), show (sqlRow ops row ++ w).tail = (sqlRow ops row).tail ++ w from by simp [hy]] at h
    cases e1 : readLits (sqlRow ops row ++ w).length ((sqlRow ops row).tail ++ w) with
    | none => rw [e1] at h; exact absurd h (by simp)
    | some x =>
      rw [e1, Option.bind_some] at h
      have hx : x.1 = row.map litOf := by
        split_ifs at h
        · cases e2 : readSqlRows n x.2.tail with
          | none => rw [e2] at h; exact absurd h (by simp)
          | some y => rw [e2] at h; exact (List.cons.inj (congrArg Prod.fst (Option.some.inj h))).1
        · exact (List.cons.inj (congrArg Prod.fst (Option.some.inj h))).1
      have hp := hrow x.2 (hv row (by simp)).1 (hv row (by simp)).2 (by rw [e1, ← hx])
      intro u hu
      rcases List.mem_cons.1 hu with rfl | hu
      · exact hp
      · have hne : rows ≠ [] := by intro hx; subst hx; simp at hu
        have hlen := intercalate_length (txt ", ") (by decide +kernel) (row.map (sqlCell ops))
        rw [sqlRow_two ops row hp.1] at e1
        rw [show ∀ a : PyText, (40 :: a ++ [41] : PyText).tail ++ w = a ++ 41 :: w from fun a => by simp,
          readLits_plain ops row _ w (hv row (by simp)).1 hp.2 (by
            simp only [List.length_map, List.length_append, List.length_cons] at *; omega)] at e1
        have hx2 := congrArg Prod.snd (Option.some.inj e1)
        dsimp only at hx2
        rw [← hx2, hw.2 hne, if_pos (by simp), List.tail_cons] at h
        cases e2 : readSqlRows n ((txt ",").intercalate (rows.map (sqlRow ops)) ++ r) with
        | none => rw [e2] at h; exact absurd h (by simp)
        | some y =>
          rw [e2] at h
          have hy : y.1 = rows.map (·.map litOf) := (List.cons.inj (congrArg Prod.fst (Option.some.inj h))).2
          exact readSqlRows_conv ops rows n r y.2 (fun u hu => hv u (List.mem_cons_of_mem _ hu)) (by rw [e2, ← hy]) u hu

/-- Exactly when: a table with plain names, of integers, texts and missing values, is written as a script that creates its columns and inserts its rows
if and only if it has two or more columns and at least one row, its columns have the same length, and its values are integers and texts of printable
characters without `'` and `\`. -/
theorem C101_exact (ops : SqlOps O) (name : PyText) (t : Tbl PyText (PV O)) (ht : t ≠ []) (hn : ∀ c ∈ t, SqlName c.1)
    (hv : ∀ c ∈ t, ∀ v ∈ colIter c.2, v.type = .none ∨ v.type = .int ∨ v.type = .str) :
    (∃ s, toSql ops name t = .ok s ∧ readScript name s = some (t.map fun c => (c.1, typeOf (colIter c.2)), (sqlRows t).map (·.map litOf))) ↔
      2 ≤ t.length ∧ 0 < tblLen t ∧ (∀ c ∈ t, (colIter c.2).length = tblLen t) ∧ ∀ c ∈ t, ∀ v ∈ colIter c.2, PlainValue ops v := by
  constructor
  swap
  · rintro ⟨h2, hpos, hrect, hp⟩
    exact C101_partial ops name t h2 hn hrect hpos hp
  rintro ⟨s, hs, h⟩
  unfold toSql at hs
  rw [C15_rows] at hs
  rw [← Except.ok.inj hs] at h
  rw [show ((List.range (tblLen t)).map fun i => t.map fun c => (colIter c.2).getD i PV.none) = sqlRows t from rfl] at h
  have hvals : ∀ row ∈ sqlRows t, row ≠ [] ∧ ∀ v ∈ row, SqlValue v := by
    intro row hrow
    obtain ⟨i, hi, rfl⟩ := List.mem_map.1 hrow
    refine ⟨by simpa using ht, ?_⟩
    intro v hvm
    obtain ⟨c, hc, rfl⟩ := List.mem_map.1 hvm
    rw [List.getD_eq_getElem?_getD]
    cases e : (colIter c.2)[i]? with
    | none => exact .inl rfl
    | some w => exact hv c hc w (List.mem_of_getElem? e)
  unfold readScript at h
  rw [show ∀ D E F : PyText, (txt "begin; CREATE TABLE " ++ name ++ txt " (" ++ D ++ txt "); INSERT INTO " ++ name ++ txt " VALUES " ++ E ++ F)
      = (txt "begin; CREATE TABLE " ++ name ++ txt " (") ++ (D ++ 41 :: ((txt "; INSERT INTO " ++ name ++ txt " VALUES ") ++ (E ++ F))) from by
    intro D E F
    rw [show txt "); INSERT INTO " = 41 :: txt "; INSERT INTO " from by decide +kernel]
    simp only [List.append_assoc, List.cons_append], readText_append, Option.bind_some, readDefs_plain t _ _ ht hn (by
      have := intercalate_length (txt ", ") (by decide +kernel) (t.map sqlDef)
      simp only [List.length_map, List.length_append, List.length_cons] at *
      omega), Option.bind_some] at h
  dsimp only at h
  rw [readText_append, Option.bind_some] at h
  cases e : readSqlRows ((txt ",").intercalate ((sqlRows t).map (sqlRow ops)) ++ txt "; commit;").length
      ((txt ",").intercalate ((sqlRows t).map (sqlRow ops)) ++ txt "; commit;") with
  | none => rw [e] at h; exact absurd h (by simp)
  | some x =>
    rw [e, Option.bind_some] at h
    have hx : x.1 = (sqlRows t).map (·.map litOf) := by
      split_ifs at h
      exact congrArg Prod.snd (Option.some.inj h)
    have hall := readSqlRows_conv ops (sqlRows t) _ _ x.2 hvals (by rw [e, ← hx])
    have hpos : 0 < tblLen t := by
      by_contra h0
      have : sqlRows t = [] := by unfold sqlRows; rw [show tblLen t = 0 from by omega]; rfl
      rw [this] at e
      have e0 : readSqlRows ((txt ",").intercalate (([] : List (List (PV O))).map (sqlRow ops)) ++ txt "; commit;").length
          ((txt ",").intercalate (([] : List (List (PV O))).map (sqlRow ops)) ++ txt "; commit;") = none := by
        show readSqlRows (txt "; commit;").length (txt "; commit;") = none
        decide +kernel
      rw [e0] at e
      exact absurd e (by simp)
    have hcell : ∀ c ∈ t, ∀ i < tblLen t, PlainValue ops ((colIter c.2).getD i .none) := by
      intro c hc i hi
      exact (hall _ (List.mem_map.2 ⟨i, List.mem_range.2 hi, rfl⟩)).2 _ (List.mem_map.2 ⟨c, hc, rfl⟩)
    have hrect : ∀ c ∈ t, (colIter c.2).length = tblLen t := by
      intro c hc
      by_contra hl
      have hle : (colIter c.2).length ≤ tblLen t := by
        rw [colIter_eq, ← colLen_eq]
        exact colLen_le_tblLen t c hc
      have := hcell c hc (colIter c.2).length (by omega)
      rw [List.getD_eq_getElem?_getD, List.getElem?_eq_none (by omega), Option.getD_none] at this
      exact this
    refine ⟨?_, hpos, hrect, ?_⟩
    · have := (hall _ (List.mem_map.2 ⟨0, List.mem_range.2 hpos, rfl⟩)).1
      simpa using this
    · intro c hc v hvm
      obtain ⟨i, hi, rfl⟩ := List.getElem_of_mem hvm
      have := hcell c hc i (by rw [← hrect c hc]; exact hi)
      rwa [List.getD_eq_getElem?_getD, List.getElem?_eq_getElem hi, Option.getD_some] at this

/-- a table with None is not written as such a script, by `C101_exact`; the same table without it is -/
example : (∀ s, toSql sqlOps0 (txt "t") (sqlPair .none (.int 1)) = .ok s → readScript (txt "t") s ≠
      some ([(txt "a", txt "TEXT"), (txt "b", txt "INTEGER")], [[.null, .num 1]])) ∧
    ∃ s, toSql sqlOps0 (txt "t") (sqlPair (.int 2) (.int 1)) = .ok s ∧ readScript (txt "t") s =
      some ([(txt "a", txt "INTEGER"), (txt "b", txt "INTEGER")], [[.num 2, .num 1]]) := by
  have hn : ∀ x y, ∀ c ∈ sqlPair x y, SqlName c.1 := by
    intro x y c hc
    simp only [sqlPair, List.mem_cons, List.not_mem_nil, or_false] at hc
    rcases hc with rfl | rfl
    · exact (by unfold SqlName; decide +kernel : SqlName (txt "a"))
    · exact (by unfold SqlName; decide +kernel : SqlName (txt "b"))
  constructor
  · intro s hs h
    have := (C101_exact sqlOps0 (txt "t") (sqlPair .none (.int 1)) (by simp [sqlPair]) (hn _ _) (by decide +kernel)).1 ⟨s, hs, h.trans (by decide +kernel)⟩
    exact this.2.2.2 (txt "a", [[.none]]) (by simp [sqlPair]) .none (List.mem_singleton.2 rfl)
  · obtain ⟨s, hs, h⟩ := (C101_exact sqlOps0 (txt "t") (sqlPair (.int 2) (.int 1)) (by simp [sqlPair]) (hn _ _) (by decide +kernel)).2
      ⟨by decide, by decide, by decide +kernel, by
        intro c hc v hv
        simp only [sqlPair, List.mem_cons, List.not_mem_nil, or_false] at hc
        rcases hc with rfl | rfl
        · rw [List.mem_singleton.1 (show v ∈ [PV.int 2] from hv)]; trivial
        · rw [List.mem_singleton.1 (show v ∈ [PV.int 1] from hv)]; trivial⟩
    exact ⟨s, hs, h.trans (by decide +kernel)⟩

end Tablite
