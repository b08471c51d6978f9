import Verif.Props.CarryRel
import Verif.Props.Lookup
/-!
# C28 in terms of rows

`lookup` as a step from two lists of rows to a list of rows, so that scripts (C128) may use it.
-/

namespace Tablite

section
variable {ν α : Type} [DecidableEq ν]

theorem addColumns_eq (mk : ν → Nat → ν) (hmk : ∀ d a b, mk d a = mk d b → a = b) (second : Tbl ν α) : ∀ (t : Tbl ν α),
    ∃ add : Tbl ν α, addColumns mk t second = t ++ add ∧ add.map (·.2) = second.map (·.2) := by
  induction second with
  | nil => exact fun t => ⟨[], by simp [addColumns], rfl⟩
  | cons c u ih =>
    intro t
    have hnew := (C47_unique_name mk c.1 (t.map (·.1)) (hmk c.1)).1
    obtain ⟨add, h1, h2⟩ := ih (tblSet t (uniqueName mk c.1 (t.map (·.1))) c.2)
    refine ⟨(uniqueName mk c.1 (t.map (·.1)), c.2) :: add, ?_, by simp [h2]⟩
    unfold addColumns at h1 ⊢
    rw [List.foldl_cons, h1]
    unfold tblSet
    rw [dUpd_new _ _ _ _ hnew]
    simp

theorem lookupLoop_len {η : Type} [DecidableEq η] (hash : List α → η) (search : List α → Option Nat) : ∀ (cache : List (η × Int)) (rs : List (List α)), (lookupLoop hash search cache rs).length = rs.length
  | _, [] => rfl
  | cache, r :: rs => by
    unfold lookupLoop
    split
    · simp [lookupLoop_len hash search cache rs]
    · simp [lookupLoop_len hash search _ rs]

/-- what a lookup adds to a table -/
theorem tblLookup_adds {η : Type} [DecidableEq η] (hash : List α → η) (ord : List ν → List ν) (hord : ∀ l, (ord l).Perm l) (ps : Nat) (hps : 0 < ps) (mk : ν → Nat → ν)
    (hmk : ∀ d a b, mk d a = mk d b → a = b) (nul : α) (all : Bool) (t o t' : Tbl ν α) (n : Nat) (ht : Rect t n) (ho : Solid o) (crits : List (Criterion ν α))
    (h : tblLookup hash ord ps mk nul all t o crits = .ok t') (hr : Rect t' n) : ∃ add : Tbl ν α, t' = t ++ add ∧ ∀ c ∈ add, c.2.map List.length = layoutOf ps n := by
  unfold tblLookup at h
  dsimp only at h
  split at h
  · cases h
  · rename_i hne
    push Not at hne
    rw [subTable_rows nul t n ht _ hne.1 (fun x hx => ((mem_operandColumns ord hord t _ x).1 hx).1)] at h
    obtain ⟨lr, h0, h⟩ := ebind_ok h
    cases h0
    obtain ⟨rr, _, h⟩ := ebind_ok h
    generalize hix : lookupLoop hash _ [] _ = index at h
    have hlen : index.length = n := by rw [← hix, lookupLoop_len]; simp
    obtain ⟨second, hs, h⟩ := ebind_ok h
    cases h
    obtain ⟨add, e1, e2⟩ := addColumns_eq mk hmk second t
    rw [e1] at hr
    refine ⟨add, e1, ?_⟩
    intro c hc
    have hc2 : c.2 ∈ second.map (·.2) := by rw [← e2]; exact List.mem_map.2 ⟨c, hc, rfl⟩
    obtain ⟨d, hd, e⟩ := List.mem_map.1 hc2
    obtain ⟨s, hsm, hf⟩ := mapM_mem _ _ _ hs d hd
    obtain ⟨q, hq, hf⟩ := ebind_ok hf
    cases hf
    dsimp only at e
    subst e
    rw [reindexCol_full ps hps nul s.2 _ (ho s hsm) index hq (by rw [hlen]; exact hr c (List.mem_append_right _ hc)), hlen]

end

variable {ν α : Type} [DecidableEq ν] [DecidableEq α]

/-- Spec: the value of an operand in a row: a value of the row, if the operand names a column -/
def Rel.critVal (nul : α) (r : Rel ν α) (row : List α) : Operand ν α → α
  | .name x v => if x ∈ r.names then r.get nul row x else v
  | .value v => v

/-- Spec: two rows meet all the criteria, or one of them -/
def Rel.meets (nul : α) (all : Bool) (crits : List (Criterion ν α)) (r s : Rel ν α) (a b : List α) : Bool :=
  if all then crits.all fun c => c.op (r.critVal nul a c.left) (s.critVal nul b c.right) else crits.any fun c => c.op (r.critVal nul a c.left) (s.critVal nul b c.right)

/-- Spec: each row is followed by the first row of `s` that meets the criteria with it, or by missing values -/
def Rel.lookedUp (nul : α) (mk : ν → Nat → ν) (all : Bool) (crits : List (Criterion ν α)) (r s : Rel ν α) : Rel ν α :=
  ⟨r.names ++ rightNames mk r.names s.names, r.rows.map fun a => a ++ (s.rows.find? (r.meets nul all crits s a)).getD (s.names.map fun _ => nul)⟩

/-- Spec: the call makes sense: the criteria name columns of both tables, rows are told apart by their hashes, and each row is met by one -/
structure Rel.LookupArgs {η : Type} (nul : α) (hash : List α → η) (all : Bool) (crits : List (Criterion ν α)) (r s : Rel ν α) : Prop where
  left : ∃ x v, Operand.name x v ∈ crits.map (·.left) ∧ x ∈ r.names
  right : ∃ x v, Operand.name x v ∈ crits.map (·.right) ∧ x ∈ s.names
  hashes : ∀ a b, hash a = hash b → a = b
  met : ∀ a ∈ r.rows, ∃ b ∈ s.rows, r.meets nul all crits s a b = true

theorem find_first {β : Type} (p : β → Bool) (l : List β) (d : β) (r : Option Nat) (h : IsFirst (fun j => p (l.getD j d) = true) l.length r) : l.find? p = r.map fun j => l.getD j d := by
  cases r with
  | none =>
    rw [Option.map_none, List.find?_eq_none]
    intro x hx
    obtain ⟨i, hi, rfl⟩ := List.getElem_of_mem hx
    have := h i hi
    dsimp only at this
    rwa [List.getD_eq_getElem?_getD, List.getElem?_eq_getElem hi, Option.getD_some] at this
  | some j =>
    obtain ⟨h1, h2, h3⟩ := h
    have e : l.getD j d = l[j] := by rw [List.getD_eq_getElem?_getD, List.getElem?_eq_getElem h1, Option.getD_some]
    rw [Option.map_some, List.find?_eq_some_iff_getElem]
    refine ⟨h2, j, h1, e.symm, fun k hk => ?_⟩
    have := h3 k hk
    dsimp only at this
    rw [List.getD_eq_getElem?_getD, List.getElem?_eq_getElem (by omega), Option.getD_some] at this
    simpa using this

theorem shows_opVal {nul : α} {t : Tbl ν α} {r : Rel ν α} (h : Shows nul t r) (i : Nat) (o : Operand ν α) : opVal nul t i o = r.critVal nul (r.rows.getD i []) o := by
  cases o with
  | name x v => simp only [opVal, Rel.critVal, h.2.1, h.cell]
  | value v => rfl

theorem shows_rowMatch {nul : α} {t o : Tbl ν α} {r s : Rel ν α} (h : Shows nul t r) (g : Shows nul o s) (all : Bool) (crits : List (Criterion ν α)) (i j : Nat) :
    rowMatch nul all t o crits i j ↔ r.meets nul all crits s (r.rows.getD i []) (s.rows.getD j []) = true := by
  unfold rowMatch Rel.meets
  simp only [shows_opVal h, shows_opVal g]
  cases all <;> simp

/-- **C28** partial, in rows: `lookup` gives a table with the rows of the spec; if the left table was cut by the page size, the columns of the result are cut at the same places.  Missing: rows with equal hashes (`C28_fails`) and rows
without a match in tables longer than a page. -/
theorem C28_rows_partial {η : Type} [DecidableEq η] {nul : α} {t o : Tbl ν α} {r s : Rel ν α} (h : Shows nul t r) (g : Shows nul o s) (hso : Solid t) (hsu : Solid o) (hash : List α → η) (ord : List ν → List ν)
    (hord : ∀ l, (ord l).Perm l) (ps : Nat) (hps : 0 < ps) (mk : ν → Nat → ν) (hmk : ∀ d a b, mk d a = mk d b → a = b) (all : Bool) (crits : List (Criterion ν α)) (ok : r.LookupArgs nul hash all crits s) :
    ∃ t', tblLookup hash ord ps mk nul all t o crits = .ok t' ∧ Shows nul t' (r.lookedUp nul mk all crits s) ∧ Solid t' ∧ (CutByPageSize ps t → Aligned t') := by
  have hgetD : ∀ i < r.rows.length, r.rows.getD i [] ∈ r.rows := by
    intro i hi
    rw [List.getD_eq_getElem?_getD, List.getElem?_eq_getElem hi, Option.getD_some]
    exact List.getElem_mem hi
  obtain ⟨rows, h1, h2, t', h3, h4⟩ := C28_lookup_partial hash ord hord ps hps mk hmk nul all t o r.rows.length s.rows.length h.2.2.1 g.2.2.1 g.wf crits (by rw [h.2.1]; exact ok.left) (by rw [g.2.1]; exact ok.right)
    (fun names i i' _ _ e => ok.hashes _ _ e) (by
      rintro ⟨i, hi, hn⟩
      obtain ⟨b, hb, e⟩ := ok.met _ (hgetD i hi)
      obtain ⟨j, hj, rfl⟩ := List.getElem_of_mem hb
      exact absurd ((shows_rowMatch h g all crits i j).2 (by rwa [List.getD_eq_getElem?_getD (l := s.rows), List.getElem?_eq_getElem hj, Option.getD_some])) (hn j hj))
  have hfind : ∀ i (hi : i < rows.length), s.rows.find? (r.meets nul all crits s (r.rows.getD i [])) = rows[i].map fun j => s.rows.getD j [] := by
    intro i hi
    have := h2 i rows[i] (List.getElem?_eq_getElem hi)
    apply find_first
    revert this
    have hiff := shows_rowMatch h g all crits i
    cases rows[i] with
    | none => exact fun f k hk e => f k hk ((hiff k).2 e)
    | some j => exact fun f => ⟨f.1, (hiff j).1 f.2.1, fun k hk e => f.2.2 k hk ((hiff k).2 e)⟩
  have hnd := rightNames_nodup mk hmk r.names s.names h.1.2.1
  have hlenR := rightNames_length mk r.names s.names
  have hrowlen : ∀ a ∈ r.rows, ((s.rows.find? (r.meets nul all crits s a)).getD (s.names.map fun _ => nul)).length = s.names.length := by
    intro a ha
    cases hf : s.rows.find? (r.meets nul all crits s a) with
    | none => simp
    | some b => exact g.1.2.2 b (List.mem_of_find?_eq_some hf)
  have hs : Shows nul t' (r.lookedUp nul mk all crits s) := by
    rw [shows_iff]
    refine ⟨⟨?_, hnd, ?_⟩, ?_⟩
    · intro e
      exact h.1.1 (List.append_eq_nil_iff.1 e).1
    · intro row hrow
      obtain ⟨a, ha, rfl⟩ := List.mem_map.1 hrow
      rw [List.length_append, hrowlen a ha, h.1.2.2 a ha]
      simp [Rel.lookedUp, hlenR]
    · rw [h4, h.view, h.2.1, g.2.1]
      unfold Rel.cols Rel.lookedUp
      dsimp only
      rw [List.map_append]
      congr 1
      · apply List.map_congr_left
        intro x hx
        rw [List.map_map]
        congr 1
        apply List.map_congr_left
        intro a ha
        simp only [Function.comp, Rel.get]
        have hi : r.names.idxOf x < r.names.length := List.idxOf_lt_length_iff.2 hx
        rw [List.idxOf_append_of_mem hx, List.getD_eq_getElem?_getD, List.getD_eq_getElem?_getD, List.getElem?_append_left (by rw [h.1.2.2 a ha]; exact hi)]
      · apply List.ext_getElem
        · simp [hlenR]
        · intro k g1 g2
          have hk : k < s.names.length := by simp [hlenR] at g1; exact g1
          have hkr : k < (rightNames mk r.names s.names).length := by rw [hlenR]; exact hk
          simp only [List.getElem_map, List.getElem_zip, List.map_map, Prod.mk.injEq, true_and]
          apply List.ext_getElem
          · simp [h1]
          · intro i e1 e2
            have hi : i < rows.length := by simpa using e1
            have hir : i < r.rows.length := by rw [← h1]; exact hi
            have hidx : (r.names ++ rightNames mk r.names s.names).idxOf (rightNames mk r.names s.names)[k] = r.names.length + k := by
              have : (rightNames mk r.names s.names)[k] = (r.names ++ rightNames mk r.names s.names)[r.names.length + k]'(by simp; exact hkr) := by
                rw [List.getElem_append_right (by omega)]
                simp
              rw [this, List.Nodup.idxOf_getElem hnd]
            have hrl : (r.rows[i]).length = r.names.length := h.1.2.2 _ (List.getElem_mem hir)
            have hf := hfind i hi
            rw [List.getD_eq_getElem?_getD, List.getElem?_eq_getElem hir, Option.getD_some] at hf
            simp only [List.getElem_map, Function.comp, Rel.get, hidx, hf]
            rw [List.getD_eq_getElem?_getD, List.getElem?_append_right (by omega), hrl, Nat.add_sub_cancel_left]
            cases rows[i] with
            | none => simp [optCell]
            | some j =>
              simp only [optCell, Option.map_some, Option.getD_some, g.cell, Rel.get, List.Nodup.idxOf_getElem g.1.2.1]
              rw [← List.getD_eq_getElem?_getD]
  have hrl : (r.lookedUp nul mk all crits s).rows.length = r.rows.length := by simp [Rel.lookedUp]
  have hrect : Rect t' r.rows.length := hrl ▸ hs.2.2.1
  obtain ⟨add, ea, eb⟩ := tblLookup_adds hash ord hord ps hps mk hmk nul all t o t' r.rows.length h.2.2.1 hsu crits h3 hrect
  refine ⟨t', h3, hs, ?_, ?_⟩
  · intro c hc p hp
    rw [ea] at hc
    rcases List.mem_append.1 hc with hc | hc
    · exact hso c hc p hp
    · have := (layoutOf_pos ps r.rows.length hps).1 p.length (by rw [← eb c hc]; exact List.mem_map.2 ⟨p, hp, rfl⟩)
      exact List.ne_nil_of_length_pos this
  · intro hfull
    refine ⟨layoutOf ps r.rows.length, fun c hc => ?_⟩
    rw [ea] at hc
    rcases List.mem_append.1 hc with hc | hc
    · rw [hfull c hc, h.2.2.1 c hc]
    · exact eb c hc

/-- rows followed by the first row with a greater value -/
example : (⟨["a"], [[1], [4]]⟩ : Rel String Nat).lookedUp 0 (fun x _ => x ++ "_") true [⟨fun x y => decide (x < y), .name "a" 0, .name "b" 0⟩] ⟨["b"], [[2], [3], [7]]⟩ = ⟨["a", "b"], [[1, 2], [4, 7]]⟩ ∧
    (⟨["a"], [[1], [4]]⟩ : Rel String Nat).LookupArgs 0 id true [⟨fun x y => decide (x < y), .name "a" 0, .name "b" 0⟩] ⟨["b"], [[2], [3], [7]]⟩ := by
  refine ⟨?_, ⟨"a", 0, by simp, by decide⟩, ⟨"b", 0, by simp, by decide⟩, fun _ _ e => e, by decide⟩
  rw [Rel.lookedUp, Rel.mk.injEq]
  exact ⟨by decide +kernel, by decide⟩

end Tablite
