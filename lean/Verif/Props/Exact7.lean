import Verif.Props.Codec
import Verif.Props.Display
/-!
# Exact conditions: C51 (bytes taken as text), C96 (rows of a dictionary)
-/

namespace Tablite

theorem utf8Char_lt (c : Nat) (hc : Scalar c) : ∃ h, utf8Char c = .ok h := (utf8Char_decode c hc).imp fun _ h => h.1

/-- bytes decode to a text only if they are the bytes of the text -/
theorem utf8Decode_encode (n : Nat) (b : List Nat) (hn : b.length ≤ n) (t : PyText) (h : utf8Decode b = .ok t) :
    (∀ c ∈ t, Scalar c) ∧ utf8Encode t = .ok b := by
  induction n generalizing b t with
  | zero =>
    have : b = [] := List.eq_nil_of_length_eq_zero (by omega)
    subst this
    rw [utf8Decode] at h; cases h
    exact ⟨by simp, rfl⟩
  | succ n ih =>
    have step : ∀ (p : Nat) (r : List Nat) (pre : List Nat), r.length ≤ n → Scalar p → utf8Char p = .ok pre →
        ((utf8Decode r).bind fun t => .ok (p :: t)) = .ok t → (∀ c ∈ t, Scalar c) ∧ utf8Encode t = .ok (pre ++ r) := by
      intro p r pre hr hp hpre h
      cases hd : utf8Decode r with
      | error => rw [hd] at h; cases h
      | ok u =>
        rw [hd] at h
        cases h
        obtain ⟨h1, h2⟩ := ih r hr u hd
        exact ⟨List.forall_mem_cons.2 ⟨hp, h1⟩, by rw [utf8Encode, hpre, h2]; rfl⟩
    cases b with
    | nil => rw [utf8Decode] at h; cases h; exact ⟨by simp, rfl⟩
    | cons a r =>
      rw [List.length_cons] at hn
      rw [utf8Decode.eq_def] at h
      dsimp only at h
      split at h
      · rename_i ha
        exact step a r [a] (by omega) ⟨by omega, by omega⟩ (if_pos ha) h
      split at h
      · cases h
      split at h
      · rename_i h1 h2 h3
        cases r with
        | nil => cases h
        | cons b r =>
          dsimp only at h
          split at h
          · rename_i hb
            simp only [isCont, Bool.and_eq_true, decide_eq_true_eq] at hb
            rw [List.length_cons] at hn
            refine step _ r [a, b] (by omega) ⟨by omega, by omega⟩ ?_ h
            rw [utf8Char, if_neg (by omega), if_pos (by omega)]
            refine congrArg Except.ok ?_
            simp only [List.cons.injEq, and_true]
            omega
          · cases h
      split at h
      · rename_i h1 h2 h3 h4
        rcases r with _ | ⟨b, _ | ⟨c, r⟩⟩
        · cases h
        · cases h
        · dsimp only at h
          split at h
          · rename_i hb
            simp only [isCont, Bool.and_eq_true, decide_eq_true_eq, Bool.not_eq_true', Bool.and_eq_false_iff, decide_eq_false_iff_not] at hb
            simp only [List.length_cons] at hn
            refine step _ r [a, b, c] (by omega) ⟨by omega, by omega⟩ ?_ h
            rw [utf8Char, if_neg (by omega), if_neg (by omega), if_pos (by omega), if_neg (by omega)]
            refine congrArg Except.ok ?_
            simp only [List.cons.injEq, and_true]
            omega
          · cases h
      · rename_i h1 h2 h3 h4
        rcases r with _ | ⟨b, _ | ⟨c, _ | ⟨d, r⟩⟩⟩
        · cases h
        · cases h
        · cases h
        · dsimp only at h
          split at h
          · rename_i hb
            simp only [isCont, Bool.and_eq_true, decide_eq_true_eq] at hb
            simp only [List.length_cons] at hn
            refine step _ r [a, b, c, d] (by omega) ⟨by omega, by omega⟩ ?_ h
            rw [utf8Char, if_neg (by omega), if_neg (by omega), if_neg (by omega)]
            refine congrArg Except.ok ?_
            simp only [List.cons.injEq, and_true]
            omega
          · cases h

/-- C51, exactly for bytes taken as text: the bytes give a text if and only if they are the bytes of that text, which has no surrogates: stray,
missing or superfluous bytes are refused, and no two byte strings give the same text. -/
theorem C51_decode_exact {O : Type} (R : Runtime O) (b : List Nat) (t : PyText) :
    fromTypeCode R b 5 = .ok (.str t) ↔ (∀ c ∈ t, Scalar c) ∧ utf8Encode t = .ok b := by
  have e : fromTypeCode R b 5 = (utf8Decode b).bind fun t => .ok (.str t) := rfl
  rw [e]
  constructor
  · intro h
    cases hd : utf8Decode b with
    | error => rw [hd] at h; cases h
    | ok u =>
      rw [hd] at h
      cases h
      exact utf8Decode_encode b.length b le_rfl _ hd
  · rintro ⟨h1, h2⟩
    obtain ⟨b', h3, h4⟩ := utf8_roundtrip t h1
    rw [h2] at h3
    cases h3
    rw [h4]; rfl

example : ∀ t, fromTypeCode exactRuntime [195, 40] 5 ≠ .ok (.str t) := by
  intro t h
  have : fromTypeCode exactRuntime [195, 40] 5 = .error .value := rfl
  rw [this] at h; cases h
example : fromTypeCode exactRuntime [195, 169] 5 = .ok (.str [233]) := rfl

/-! ## C96: `dict_to_rows` -/

theorem mapM_index_error {A B : Type} (f : A → Except Err B) (hf : ∀ a, (∃ b, f a = .ok b) ∨ f a = .error .index) (l : List A)
    (h : ∃ a ∈ l, f a = .error .index) : l.mapM f = .error .index := by
  induction l with
  | nil => obtain ⟨a, ha, _⟩ := h; cases ha
  | cons a l ih =>
    rw [List.mapM_cons]
    rcases hf a with ⟨b, hb⟩ | he
    · obtain ⟨x, hx, hxe⟩ := h
      rcases List.mem_cons.1 hx with rfl | hx
      · rw [hb] at hxe; cases hxe
      · rw [hb, ih ⟨x, hx, hxe⟩]; rfl
    · rw [he]; rfl

/-- value number `i` of a column, or IndexError -/
def cellAt {β : Type} (i : Nat) (c : List Char × List β) : Except Err β :=
  match c.2[i]? with
  | some v => .ok v
  | none => .error .index

theorem dictRow_cells {β : Type} (d : List (List Char × List β)) (i : Nat) : dictRow d i = d.mapM (cellAt i) := rfl

theorem cellAt_kind {β : Type} (i : Nat) (c : List Char × List β) : (∃ v, cellAt i c = .ok v) ∨ cellAt i c = .error .index := by
  unfold cellAt
  cases c.2[i]? with
  | some v => exact Or.inl ⟨v, rfl⟩
  | none => exact Or.inr rfl

theorem dictRow_kind {β : Type} (d : List (List Char × List β)) (i : Nat) : (∃ r, dictRow d i = .ok r) ∨ dictRow d i = .error .index := by
  rw [dictRow_cells]
  by_cases h : ∃ c ∈ d, cellAt i c = .error .index
  · exact Or.inr (mapM_index_error _ (cellAt_kind i) d h)
  · refine Or.inl ?_
    induction d with
    | nil => exact ⟨[], rfl⟩
    | cons x d ih =>
      obtain ⟨r, hr⟩ := ih fun ⟨c, hc, e⟩ => h ⟨c, List.mem_cons_of_mem _ hc, e⟩
      rcases cellAt_kind i x with ⟨v, hv⟩ | he
      · exact ⟨v :: r, by rw [List.mapM_cons, hv, hr]; rfl⟩
      · exact absurd ⟨x, List.mem_cons_self, he⟩ h

/-- **C96** (rows of a dictionary), exactly: `dict_to_rows` raises ValueError for a dictionary without columns, IndexError for columns of different lengths, and
otherwise gives the names and as many rows as a column is long, row `i` with the values number `i` of the columns in order. -/
theorem C96_dict_rows_exact {β : Type} (d : List (List Char × List β)) :
    (d = [] → dictToRows d = .error .value) ∧
    ((∃ a ∈ d, ∃ b ∈ d, a.2.length ≠ b.2.length) → dictToRows d = .error .index) ∧
    (∀ m, d ≠ [] → (∀ c ∈ d, c.2.length = m) →
      ∃ rows, dictToRows d = .ok (d.map (·.1), rows) ∧ rows.length = m ∧ ∀ (i : Nat) (row : List β), rows[i]? = some row → row.map some = d.map fun c => c.2[i]?) := by
  refine ⟨fun h => if_pos h, ?_, fun m hd hm => dictToRows_ok d hd m hm⟩
  rintro ⟨a, ha, b, hb, hab⟩
  have hd : d ≠ [] := by rintro rfl; cases ha
  have hge := fun c hc => (foldl_max_ge (d.map fun c => c.2.length) 0).2 c.2.length (List.mem_map.2 ⟨c, hc, rfl⟩)
  obtain ⟨c, hc, hlt⟩ : ∃ c ∈ d, c.2.length < (d.map fun c => c.2.length).foldl max 0 := by
    rcases Nat.lt_or_gt_of_ne hab with h | h
    · exact ⟨a, ha, Nat.lt_of_lt_of_le h (hge b hb)⟩
    · exact ⟨b, hb, Nat.lt_of_lt_of_le h (hge a ha)⟩
  unfold dictToRows
  rw [if_neg hd, mapM_index_error (dictRow d) (dictRow_kind d) _ ⟨c.2.length, List.mem_range.2 hlt, ?_⟩]
  · rfl
  · rw [dictRow_cells]
    refine mapM_index_error _ (cellAt_kind _) d ⟨c, hc, ?_⟩
    rw [cellAt, List.getElem?_eq_none (Nat.le_refl _)]

example : dictToRows [("a".toList, [1, 2]), ("b".toList, [3])] = .error .index := by decide
example : dictToRows [("a".toList, [1, 2]), ("b".toList, [3, 4])] = .ok (["a".toList, "b".toList], [[1, 3], [2, 4]]) := by decide

end Tablite
