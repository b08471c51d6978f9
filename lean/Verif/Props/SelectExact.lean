import Verif.Props.Select
import Verif.Props.Exact3
/-!
# C46 exactly: the names of selected columns
-/

namespace Tablite

/-- the name that entry `i` of a selection gets: the asked name, with `_m` if it has been asked for `m` times before -/
def askedName (ws : Char → Bool) (entries : List SelEntry) (i : Nat) : List Char :=
  match entries[i]? with
  | none => []
  | some e =>
    let m := ((entries.take i).map (entryName ws)).count (entryName ws e)
    if m = 0 then entryName ws e else entryName ws e ++ '_' :: Nat.toDigits 10 m

/-- all these names -/
def askedNames (ws : Char → Bool) (entries : List SelEntry) : List (List Char) := (List.range entries.length).map (askedName ws entries)

theorem numbered_getElem {ν β : Type} [DecidableEq ν] (mk : ν → Nat → ν) (l : List (ν × β)) (seen : List ν) (i : Nat) (hi : i < l.length) :
    ((numbered mk seen l).map (·.1))[i]? = some (nameNth mk l[i].1 (((l.take i).map (·.1)).count l[i].1 + seen.count l[i].1)) := by
  induction l generalizing seen i with
  | nil => simp at hi
  | cons e l ih =>
    cases i with
    | zero => simp [numbered]
    | succ i =>
      simp only [numbered, List.map_cons, List.getElem?_cons_succ, List.getElem_cons_succ, List.take_succ_cons]
      rw [ih (e.1 :: seen) i (by simpa using hi), List.count_cons, List.count_cons]
      congr 2
      omega

theorem dUpd_names {ν β : Type} [DecidableEq ν] (init : β) (x : ν) (f : β → β) (d : List (ν × β)) : (dUpd init x f d).map (·.1) = if x ∈ d.map (·.1) then d.map (·.1) else d.map (·.1) ++ [x] := by
  induction d with
  | nil => simp [dUpd]
  | cons a t ih =>
    obtain ⟨b, d⟩ := a
    rw [dUpd]
    by_cases e : b = x
    · rw [if_pos e]
      simp [e]
    · rw [if_neg e, List.map_cons, ih]
      have : ¬ x = b := fun h => e h.symm
      simp only [List.map_cons, List.mem_cons, this, false_or]
      split <;> simp

/-- the names in a dictionary of desired columns: the different names in order of first use -/
theorem selDesired_names {ν : Type} [DecidableEq ν] (l : List (ν × SelReq ν)) : (selDesired l).map (·.1) = firstOccs (l.map (·.1)) := by
  unfold selDesired
  induction l using List.reverseRecOn with
  | nil => rfl
  | append_singleton l e ih =>
    rw [List.foldl_append, List.foldl_cons, List.foldl_nil, dUpd_names, ih, List.map_append, List.map_cons, List.map_nil, firstOccs_snoc]
    simp only [mem_firstOccs]

/-- **C46** (effect).  The passed table has one column for each different name among those worked out, in the order of first use. -/
theorem C46_effect {α : Type} [DecidableEq α] (ops : SelOps α) (ws : Char → Bool) (dflt : α) (step ps : Nat) (t : List (List Char × List (SelPage α)))
    (entries : List SelEntry) (res : SelResult (List Char) α) (h : columnSelect ops ws dflt step ps t entries = .ok res) :
    res.pass.map (·.1) = firstOccs (askedNames ws entries) := by
  unfold columnSelect at h
  cases h1 : entries.mapM (selBase ws) with
  | error _ => rw [h1] at h; simp [Except.bind] at h
  | ok cols =>
    rw [h1] at h
    dsimp only [Except.bind] at h
    have h2 := mapM_selBase ws entries cols h1
    rw [selNames_numbered selSuffix cols [] [] (by intro b; simp [dGet])] at h
    rw [columnSelectNamed_names ops dflt step ps t _ res h, selDesired_names]
    congr 1
    apply List.ext_getElem?
    intro i
    have hlen : cols.length = entries.length := by rw [h2, List.length_map]
    by_cases hi : i < cols.length
    · rw [numbered_getElem selSuffix cols [] i hi]
      unfold askedNames askedName
      rw [List.getElem?_map, List.getElem?_range (by omega), Option.map_some, List.getElem?_eq_getElem (by omega)]
      subst h2
      simp only [List.getElem_map, List.map_take, List.map_map, List.count_nil, Nat.add_zero]
      rw [show (instBEqOfDecidableEq : BEq (List Char)) = List.instBEq from lawful_beq_subsingleton _ _]
      rfl
    · have hl2 : ((numbered selSuffix [] cols).map (·.1)).length = cols.length := by
        have := congrArg List.length (numbered_snd selSuffix [] cols)
        simpa using this
      rw [List.getElem?_eq_none (by omega), List.getElem?_eq_none (by simp [askedNames]; omega)]

/-- **C46** (exact).  The passed table has as many columns as were asked for exactly when the names worked out are distinct; its names are distinct always. -/
theorem C46_exact {α : Type} [DecidableEq α] (ops : SelOps α) (ws : Char → Bool) (dflt : α) (step ps : Nat) (t : List (List Char × List (SelPage α)))
    (entries : List SelEntry) (res : SelResult (List Char) α) (h : columnSelect ops ws dflt step ps t entries = .ok res) :
    (res.pass.map (·.1)).Nodup ∧ (res.pass.length = entries.length ↔ (askedNames ws entries).Nodup) := by
  have h1 := C46_effect ops ws dflt step ps t entries res h
  have hl : (askedNames ws entries).length = entries.length := by simp [askedNames]
  refine ⟨h1 ▸ nodup_firstOccs _, ?_⟩
  rw [← hl, ← List.length_map (f := (·.1)) (as := res.pass), h1]
  constructor
  · intro e
    have sp := List.subperm_of_subset (nodup_firstOccs (askedNames ws entries)) fun x hx => mem_firstOccs.1 hx
    exact (sp.perm_of_length_le (by omega)).nodup_iff.1 (nodup_firstOccs _)
  · intro hn
    rw [firstOccs_of_nodup hn]

/-- `[a, a, b]` gets three names, `[a, a_1, a]` only two different ones -/
example : askedNames (· == ' ') [exEntry 'a' .int, exEntry 'a' .str, exEntry 'b' .int] = [['a'], ['a', '_', '1'], ['b']] ∧
    askedNames (· == ' ') [exEntry 'a' .int, ⟨['a'], some ['a', '_', '1'], .int, false⟩, exEntry 'a' .int] = [['a'], ['a', '_', '1'], ['a', '_', '1']] := by decide

end Tablite
