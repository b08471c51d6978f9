import Verif.Model.SaveCrash
import Verif.Props.SaveLoad
/-!
# C139: a save that does not complete
-/
namespace Tablite
set_option linter.unusedSectionVars false

section
variable {ν η α : Type} [DecidableEq ν] [DecidableEq η]

/-- **C139** in full: when `save` raises, the path still holds what it held before. -/
def C139_statement : Prop :=
  ∀ (ps : Nat) (yml : String) (ord : List (String × List Nat) → List (String × List Nat)) (readable : String → Bool) (old : TpzFile String String Nat) (t : NTbl String String Nat),
    0 < ps → (∀ l x, x ∈ ord l ↔ x ∈ l) → t.Ok yml → ∀ e, (saveTo yml ord readable old t).2 = .error e →
      fileLoad ps yml (saveTo yml ord readable old t).1 = fileLoad ps yml old

theorem dGet_miss {κ β : Type} [DecidableEq κ] (k : κ) (d : List (κ × β)) (h : k ∉ d.map (·.1)) : dGet k d = none := by
  induction d with
  | nil => rfl
  | cons e t ih =>
    obtain ⟨a, b⟩ := e
    simp only [List.map_cons, List.mem_cons, not_or] at h
    simp only [dGet, if_neg (Ne.symm h.1)]
    exact ih h.2

/-- a page in an archive that holds some of the entries -/
theorem readPage_some (yml : η) (ord : List (η × List α) → List (η × List α)) (hord : ∀ l x, x ∈ ord l ↔ x ∈ l) (t : NTbl ν η α) (h : t.Ok yml)
    (z : List (η × Entry ν η α)) (hz : ∀ e ∈ z, e ∈ archive yml ord t) (c : ν × List (η × List α)) (hc : c ∈ t) (p : η × List α) (hp : p ∈ c.2) :
    readPage z p.1 = if p.1 ∈ z.map (·.1) then .ok p.2 else .error .key := by
  have huniq : ∀ b, (p.1, b) ∈ z → b = .page p.2 := by
    intro b hb
    have := hz _ hb
    simp only [archive, List.mem_cons, List.mem_flatMap, List.mem_map, Prod.mk.injEq] at this
    rcases this with ⟨e, _⟩ | ⟨c', hc', p', hp', e1, e2⟩
    · exact absurd e (h.noYml c hc p hp)
    · rw [← e2, h.files c hc p hp c' hc' p' ((hord _ _).1 hp') e1.symm]
  unfold readPage zipRead
  by_cases hm : p.1 ∈ z.map (·.1)
  · obtain ⟨e, he, hee⟩ := List.mem_map.1 hm
    have he' : (p.1, e.2) ∈ z := by rw [← hee]; exact he
    have h1 := huniq _ he'
    rw [h1] at he'
    rw [if_pos hm, dGet_unique z.reverse p.1 (.page p.2) (List.mem_reverse.2 he') fun b hb => huniq b (List.mem_reverse.1 hb)]
    rfl
  · rw [if_neg hm, dGet_miss]
    · rfl
    · rwa [List.map_reverse, List.mem_reverse]

theorem foldlM_key {β γ : Type} (f : γ → β → Except Err γ) (l : List β) (hf : ∀ b ∈ l, ∀ s e, f s b = .error e → e = .key) (b : β) (hb : b ∈ l)
    (h : ∀ s, f s b = .error .key) (s : γ) : l.foldlM f s = .error .key := by
  induction l generalizing s with
  | nil => cases hb
  | cons a l ih =>
    rw [List.foldlM_cons]
    cases ha : f s a with
    | error e => rw [hf a (by simp) s e ha]; rfl
    | ok s' =>
      rcases List.mem_cons.1 hb with rfl | hb'
      · rw [h s] at ha; cases ha
      · exact ih (fun b hb => hf b (by simp [hb])) hb' s'

/-- an archive with some of the entries: it gives the whole table if all pages are in it, else KeyError -/
theorem load_some (ps : Nat) (hps : 0 < ps) (yml : η) (ord : List (η × List α) → List (η × List α)) (hord : ∀ l x, x ∈ ord l ↔ x ∈ l) (t : NTbl ν η α) (h : t.Ok yml)
    (z : List (η × Entry ν η α)) (hz : ∀ e ∈ z, e ∈ archive yml ord t) :
    ((yml ∈ z.map (·.1) ∧ ∀ c ∈ t, ∀ p ∈ c.2, p.1 ∈ z.map (·.1)) → ∃ r, tblLoad ps yml z = .ok r ∧ tview r = t.view) ∧
    (¬ (yml ∈ z.map (·.1) ∧ ∀ c ∈ t, ∀ p ∈ c.2, p.1 ∈ z.map (·.1)) → tblLoad ps yml z = .error .key) := by
  have hread := readPage_some yml ord hord t h z hz
  have hyml : yml ∈ z.map (·.1) → zipRead z yml = .ok (.yml (t.map fun c => (c.1, c.2.map (·.1)))) := by
    intro hm
    obtain ⟨e, he, hee⟩ := List.mem_map.1 hm
    have huniq : ∀ b, (yml, b) ∈ z → b = .yml (t.map fun c => (c.1, c.2.map (·.1))) := by
      intro b hb
      have := hz _ hb
      simp only [archive, List.mem_cons, List.mem_flatMap, List.mem_map, Prod.mk.injEq] at this
      rcases this with ⟨_, e⟩ | ⟨c', hc', p', hp', e1, _⟩
      · exact e
      · exact absurd e1 (h.noYml c' hc' p' ((hord _ _).1 hp'))
    have he' : (yml, e.2) ∈ z := by rw [← hee]; exact he
    have h1 := huniq _ he'
    rw [h1] at he'
    unfold zipRead
    rw [dGet_unique z.reverse yml _ (List.mem_reverse.2 he') fun b hb => huniq b (List.mem_reverse.1 hb)]
  constructor
  · rintro ⟨h1, h2⟩
    obtain ⟨r, r1, r2, -⟩ := loadCols_ok ps hps z t h.names (fun c hc p hp => by rw [hread c hc p hp, if_pos (h2 c hc p hp)]) [] (by simp) (by simp)
    refine ⟨r, ?_, by rw [r2]; simp [tview]⟩
    unfold tblLoad
    rw [hyml h1]
    exact r1
  · intro hn
    by_cases h1 : yml ∈ z.map (·.1)
    · have h2 : ∃ c ∈ t, ∃ p ∈ c.2, p.1 ∉ z.map (·.1) := by
        by_contra hcon
        exact hn ⟨h1, fun c hc p hp => by
          by_contra hm
          exact hcon ⟨c, hc, p, hp, hm⟩⟩
      obtain ⟨c, hc, p, hp, hm⟩ := h2
      unfold tblLoad
      rw [hyml h1]
      have hcol : ∀ c ∈ t, ∀ e, loadCol ps z (c.2.map (·.1)) = .error e → e = .key := by
        intro c hc e he
        by_cases hall : ∀ p ∈ c.2, readPage z p.1 = .ok p.2
        · obtain ⟨q, hq, -⟩ := loadCol_ok ps hps z c.2 hall [] (by simp)
          unfold loadCol at he
          rw [hq] at he
          cases he
        · have : ∃ p ∈ c.2, p.1 ∉ z.map (·.1) := by
            by_contra hcon
            exact hall fun p hp => by
              rw [hread c hc p hp, if_pos]
              by_contra hm
              exact hcon ⟨p, hp, hm⟩
          obtain ⟨p, hp, hm⟩ := this
          have : loadCol ps z (c.2.map (·.1)) = .error .key := by
            refine foldlM_key _ _ ?_ p.1 (List.mem_map_of_mem hp) ?_ _
            · intro b hb s e he
              obtain ⟨p', hp', rfl⟩ := List.mem_map.1 hb
              rw [hread c hc p' hp'] at he
              split at he
              · cases he
              · cases he; rfl
            · intro s
              rw [hread c hc p hp, if_neg hm]
              rfl
          rw [this] at he
          cases he
          rfl
      refine foldlM_key _ _ ?_ (c.1, c.2.map (·.1)) (List.mem_map.2 ⟨c, hc, rfl⟩) ?_ _
      · intro b hb s e he
        obtain ⟨c', hc', rfl⟩ := List.mem_map.1 hb
        dsimp only at he
        cases hl : loadCol ps z (c'.2.map (·.1)) with
        | error e' => rw [hl] at he; cases he; exact hcol c' hc' _ hl
        | ok q => rw [hl] at he; cases he
      · intro s
        have : loadCol ps z (c.2.map (·.1)) = .error .key := by
          refine foldlM_key _ _ ?_ p.1 (List.mem_map_of_mem hp) ?_ _
          · intro b hb s e he
            obtain ⟨p', hp', rfl⟩ := List.mem_map.1 hb
            rw [hread c hc p' hp'] at he
            split at he
            · cases he
            · cases he; rfl
          · intro s
            rw [hread c hc p hp, if_neg hm]
            rfl
        dsimp only
        rw [this]
        rfl
    · unfold tblLoad zipRead
      rw [dGet_miss]
      · rfl
      · rwa [List.map_reverse, List.mem_reverse]

theorem takeWhile_whole {β : Type} (q : β → Bool) (l : List β) (h : ∀ b ∈ l, q b = true) : l.takeWhile q = l := by
  induction l with
  | nil => rfl
  | cons a l ih => rw [List.takeWhile_cons, if_pos (h a (by simp)), ih fun b hb => h b (by simp [hb])]

theorem archive_page (yml : η) (ord : List (η × List α) → List (η × List α)) (hord : ∀ l x, x ∈ ord l ↔ x ∈ l) (t : NTbl ν η α) (c : ν × List (η × List α)) (hc : c ∈ t) (p : η × List α)
    (hp : p ∈ c.2) : (p.1, Entry.page p.2) ∈ archive yml ord t := by
  simp only [archive, List.mem_cons, List.mem_flatMap, List.mem_map]
  exact .inr ⟨c, hc, p, (hord _ _).2 hp, rfl⟩

/-- **C139**, exactly: after `save` the path gives the table if and only if the files of all its pages could be read; if not it gives a KeyError, whatever it gave before. -/
theorem C139_exact (ps : Nat) (hps : 0 < ps) (yml : η) (ord : List (η × List α) → List (η × List α)) (hord : ∀ l x, x ∈ ord l ↔ x ∈ l) (readable : η → Bool) (old : TpzFile ν η α)
    (t : NTbl ν η α) (h : t.Ok yml) :
    ((∀ c ∈ t, ∀ p ∈ c.2, readable p.1 = true) → (∃ r, fileLoad ps yml (saveTo yml ord readable old t).1 = .ok r ∧ tview r = t.view) ∧ (saveTo yml ord readable old t).2 ≠ .error .other) ∧
    ((∃ c ∈ t, ∃ p ∈ c.2, readable p.1 = false) → fileLoad ps yml (saveTo yml ord readable old t).1 = .error .key ∧ (saveTo yml ord readable old t).2 = .error .other) := by
  have hz : ∀ e ∈ writtenEntries yml ord readable t, e ∈ archive yml ord t := fun e he => List.takeWhile_subset _ he
  obtain ⟨l1, l2⟩ := load_some ps hps yml ord hord t h _ hz
  constructor
  · intro hr
    have hall : writtenEntries yml ord readable t = archive yml ord t := by
      unfold writtenEntries
      refine (List.takeWhile_prefix _).eq_of_length ?_
      rw [takeWhile_whole]
      intro e he
      simp only [archive, List.mem_cons, List.mem_flatMap, List.mem_map] at he
      rcases he with rfl | ⟨c, hc, p, hp, rfl⟩
      · simp
      · simp [hr c hc p ((hord _ _).1 hp)]
    constructor
    · refine l1 ⟨?_, ?_⟩
      · rw [hall]; simp [archive]
      · intro c hc p hp
        rw [hall]
        exact List.mem_map.2 ⟨_, archive_page yml ord hord t c hc p hp, rfl⟩
    · unfold saveTo
      dsimp only
      rw [hall, if_neg (Nat.lt_irrefl _)]
      split
      · intro hh; cases hh
      · intro hh; cases hh
  · rintro ⟨c, hc, p, hp, hr⟩
    have hm : p.1 ∉ (writtenEntries yml ord readable t).map (·.1) := by
      intro hm
      obtain ⟨e, he, hee⟩ := List.mem_map.1 hm
      have := List.all_eq_true.1 (List.all_takeWhile (p := fun e : η × Entry ν η α => decide (e.1 = yml) || readable e.1) (l := archive yml ord t)) e he
      rw [hee, hr] at this
      simp only [Bool.or_false, decide_eq_true_eq] at this
      exact h.noYml c hc p hp this
    refine ⟨l2 fun hcon => hm (hcon.2 c hc p hp), ?_⟩
    unfold saveTo
    dsimp only
    rw [if_pos]
    by_contra hlen
    have heq : writtenEntries yml ord readable t = archive yml ord t :=
      (List.takeWhile_prefix _).eq_of_length (Nat.le_antisymm (List.takeWhile_prefix _).length_le (Nat.le_of_not_lt hlen))
    exact hm (by rw [heq]; exact List.mem_map.2 ⟨_, archive_page yml ord hord t c hc p hp, rfl⟩)

/-- **C139** (partial): however a save is ended - a page cannot be read, an exception after any number of entries, the process killed at any point - the path afterwards gives the whole table
that was to be saved, or an error, unless the process was killed before the file was opened, in which case nothing has changed.  A mixture of two tables or a part of one is never loaded.
Missing: that the table saved before is kept, which is false. -/
theorem C139_partial (ps : Nat) (hps : 0 < ps) (yml : η) (ord : List (η × List α) → List (η × List α)) (hord : ∀ l x, x ∈ ord l ↔ x ∈ l) (readable : η → Bool) (k : Nat) (old : TpzFile ν η α)
    (t : NTbl ν η α) (h : t.Ok yml) (file : TpzFile ν η α)
    (hf : file = (saveTo yml ord readable old t).1 ∨ file = interruptedAt yml ord k t ∨ 0 < k ∧ file = killedAfter yml ord k old t) :
    (∃ e, fileLoad ps yml file = .error e) ∨ ∃ r, fileLoad ps yml file = .ok r ∧ tview r = t.view := by
  have key : ∀ z : List (η × Entry ν η α), (∀ e ∈ z, e ∈ archive yml ord t) → (∃ e, fileLoad ps yml (.zip z) = .error e) ∨ ∃ r, fileLoad ps yml (.zip z) = .ok r ∧ tview r = t.view := by
    intro z hz
    obtain ⟨l1, l2⟩ := load_some ps hps yml ord hord t h z hz
    by_cases hc : yml ∈ z.map (·.1) ∧ ∀ c ∈ t, ∀ p ∈ c.2, p.1 ∈ z.map (·.1)
    · exact .inr (l1 hc)
    · exact .inl ⟨_, l2 hc⟩
  rcases hf with rfl | rfl | ⟨hk, rfl⟩
  · exact key _ fun e he => List.takeWhile_subset _ he
  · exact key _ fun e he => List.mem_of_mem_take he
  · unfold killedAfter
    rw [if_neg (by omega)]
    split
    · exact .inl ⟨_, rfl⟩
    · exact key _ fun e he => he

/-- **C139** (interrupt), exactly: after an exception behind `k` entries the path gives the table if and only if `table.yml` and all pages are among the first `k` entries. -/
theorem C139_interrupt_exact (ps : Nat) (hps : 0 < ps) (yml : η) (ord : List (η × List α) → List (η × List α)) (hord : ∀ l x, x ∈ ord l ↔ x ∈ l) (k : Nat) (t : NTbl ν η α) (h : t.Ok yml) :
    (∃ r, fileLoad ps yml (interruptedAt yml ord k t) = .ok r) ↔ 0 < k ∧ ∀ c ∈ t, ∀ p ∈ c.2, p.1 ∈ ((archive yml ord t).take k).map (·.1) := by
  obtain ⟨l1, l2⟩ := load_some ps hps yml ord hord t h ((archive yml ord t).take k) fun e he => List.mem_of_mem_take he
  have hy : yml ∈ ((archive yml ord t).take k).map (·.1) ↔ 0 < k := by
    constructor
    · intro hm
      rcases Nat.eq_zero_or_pos k with rfl | hk
      · simp at hm
      · exact hk
    · intro hk
      obtain ⟨k, rfl⟩ := Nat.exists_eq_succ_of_ne_zero (Nat.ne_of_gt hk)
      simp [archive]
  rw [← hy]
  constructor
  · rintro ⟨r, hr⟩
    by_contra hcon
    have := l2 hcon
    cases this.symm.trans hr
  · intro hc
    obtain ⟨r, hr, -⟩ := l1 hc
    exact ⟨r, hr⟩

/-- **C139** (killed), exactly: when the process is killed, the path gives something afterwards if and only if nothing was done yet and it did before, or the archive was closed. -/
theorem C139_killed_exact (ps : Nat) (hps : 0 < ps) (yml : η) (ord : List (η × List α) → List (η × List α)) (hord : ∀ l x, x ∈ ord l ↔ x ∈ l) (k : Nat) (old : TpzFile ν η α) (t : NTbl ν η α)
    (h : t.Ok yml) : (∃ r, fileLoad ps yml (killedAfter yml ord k old t) = .ok r) ↔ (k = 0 ∧ ∃ r, fileLoad ps yml old = .ok r) ∨ (archive yml ord t).length + 2 ≤ k := by
  unfold killedAfter
  by_cases h0 : k = 0
  · subst h0
    simp
  · rw [if_neg h0]
    by_cases h1 : k ≤ (archive yml ord t).length + 1
    · rw [if_pos h1]
      constructor
      · rintro ⟨r, hr⟩; cases hr
      · rintro (⟨h2, _⟩ | h2) <;> omega
    · rw [if_neg h1]
      refine ⟨fun _ => .inr (by omega), fun _ => ?_⟩
      obtain ⟨r, hr, -⟩ := (load_some ps hps yml ord hord t h _ fun e he => he).1 ⟨by simp [archive], fun c hc p hp => List.mem_map.2 ⟨_, archive_page yml ord hord t c hc p hp, rfl⟩⟩
      exact ⟨r, hr⟩

/-- two columns; the file of the last page cannot be read -/
def crashTbl : NTbl String String Nat := [("a", [("1-1.npy", [1, 2]), ("1-2.npy", [3])]), ("b", [("1-1.npy", [1, 2]), ("1-3.npy", [4])])]

theorem crashTbl_ok : crashTbl.Ok "table.yml" := ⟨by decide, by decide, by decide⟩

/-- **C139** (the claim in full is false): a table was saved; saving another one to the same path fails, since a page cannot be read, and the path gives no table any more. -/
theorem C139_fails : ¬ C139_statement := by
  intro h
  have h1 := h 10 "table.yml" id (fun n => n != "1-3.npy") (.zip (archive "table.yml" id [("x", [("9-1.npy", [7])])])) crashTbl (by decide) (by simp) crashTbl_ok .other (by decide +kernel)
  have h2 := ((C139_exact 10 (by decide) "table.yml" id (by simp) (fun n => n != "1-3.npy") (.zip (archive "table.yml" id [("x", [("9-1.npy", [7])])])) crashTbl crashTbl_ok).2
    ⟨("b", [("1-1.npy", [1, 2]), ("1-3.npy", [4])]), by decide, ("1-3.npy", [4]), by decide, by decide⟩).1
  rw [h2] at h1
  have h3 : fileLoad 10 "table.yml" (.zip (archive "table.yml" id [("x", [("9-1.npy", [7])])]) : TpzFile String String Nat) = .ok [("x", [[7]])] := by decide +kernel
  rw [h3] at h1
  cases h1

/-- an interrupt before the last entry, which repeats a page of the first column, leaves the whole table -/
example : (∃ r, fileLoad 10 "table.yml" (interruptedAt "table.yml" id 3 [("a", [("1-1.npy", [1, 2]), ("1-2.npy", [3])]), ("b", [("1-1.npy", [1, 2])])] : TpzFile String String Nat) = .ok r) ∧
    (archive "table.yml" id [("a", [("1-1.npy", [1, 2]), ("1-2.npy", [3])]), ("b", [("1-1.npy", [1, 2])])]).length = 4 := ⟨⟨_, rfl⟩, rfl⟩

end

end Tablite
