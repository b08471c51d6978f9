import Verif.Model.Tracker
import Verif.Props.Import
/-!
# C99: imports with more columns than files may be open
-/

namespace Tablite

variable {β : Type}

/-- spec: what has been written to file `i`, in order -/
def writtenTo (i : Nat) (ws : List (Nat × β)) : List β := (ws.filter fun w => w.1 == i).map (·.2)

/-- spec: the number of open files -/
def openFiles (t : Tracker β) : Nat := t.isOpen.countP id

/-- the open files are those in `order`, each once -/
structure TrackerOk (n : Nat) (t : Tracker β) : Prop where
  len : t.isOpen.length = n
  flen : t.files.length = n
  nodup : t.order.Nodup
  mem : ∀ i, i ∈ t.order ↔ t.isOpen[i]? = some true
  count : t.pagesOpen = t.order.length
  le : t.order.length ≤ t.limit

theorem getHandle_ok (n : Nat) (t : Tracker β) (h : TrackerOk n t) (i : Nat) (hi : i < n) (hl : t.pagesOpen < t.limit) :
    ∃ t', getHandle t i = .ok t' ∧ TrackerOk n t' ∧ t'.isOpen[i]? = some true ∧ t'.files = t.files ∧ t'.limit = t.limit ∧ t'.deferred = t.deferred := by
  unfold getHandle
  have hlen : i < t.isOpen.length := by rw [h.len]; exact hi
  cases ho : t.isOpen[i]? with
  | none =>
    rw [List.getElem?_eq_none_iff] at ho
    omega
  | some b =>
    cases b with
    | true => exact ⟨t, rfl, h, ho, rfl, rfl, rfl⟩
    | false =>
      have hni : i ∉ t.order := by
        rw [h.mem, ho]
        simp
      refine ⟨_, rfl, ⟨?_, h.flen, ?_, ?_, ?_, ?_⟩, ?_, rfl, rfl, rfl⟩
      · rw [List.length_set, h.len]
      · rw [List.nodup_append]
        refine ⟨h.nodup, by simp, ?_⟩
        intro a ha b hb
        rw [List.mem_singleton] at hb
        rw [hb]
        rintro rfl
        exact hni ha
      · intro j
        dsimp only
        rw [List.mem_append, List.mem_singleton, List.getElem?_set, h.mem]
        by_cases hj : i = j
        · subst hj
          simp [hlen]
        · rw [if_neg hj]
          constructor
          · rintro (hx | hx)
            · exact hx
            · exact absurd hx.symm hj
          · exact Or.inl
      · dsimp only
        rw [List.length_append, h.count, List.length_singleton]
      · dsimp only
        rw [List.length_append, List.length_singleton, ← h.count]
        omega
      · dsimp only
        rw [List.getElem?_set, if_pos rfl, if_pos hlen]

theorem trackerGet_ok (n : Nat) (t : Tracker β) (h : TrackerOk n t) (hd : t.deferred = true) (h1 : 1 ≤ t.limit) (i : Nat) (hi : i < n) :
    ∃ t', trackerGet t i = .ok t' ∧ TrackerOk n t' ∧ t'.isOpen[i]? = some true ∧ t'.files = t.files ∧ t'.limit = t.limit ∧ t'.deferred = t.deferred := by
  unfold trackerGet
  rw [if_pos hd]
  by_cases hl : t.pagesOpen < t.limit
  · rw [if_pos hl]
    exact getHandle_ok n t h i hi hl
  · rw [if_neg hl]
    cases ho : t.order with
    | nil =>
      have := h.count
      rw [ho, List.length_nil] at this
      omega
    | cons a rest =>
      have hopen : t.isOpen[a]? = some true := (h.mem a).1 (by rw [ho]; exact List.mem_cons_self)
      have hlen : a < t.isOpen.length := by
        by_contra hx
        rw [List.getElem?_eq_none_iff.2 (by omega)] at hopen
        exact absurd hopen (by simp)
      have hnd := h.nodup
      rw [ho, List.nodup_cons] at hnd
      have hc := h.count
      have hle := h.le
      rw [ho, List.length_cons] at hc hle
      have hok : TrackerOk n { t with isOpen := t.isOpen.set a false, pagesOpen := t.pagesOpen - 1, order := rest } := by
        refine ⟨?_, h.flen, hnd.2, ?_, ?_, ?_⟩
        · dsimp only
          rw [List.length_set, h.len]
        · intro j
          dsimp only
          rw [List.getElem?_set]
          by_cases hj : a = j
          · subst hj
            rw [if_pos rfl, if_pos hlen]
            simp [hnd.1]
          · rw [if_neg hj, ← h.mem j, ho, List.mem_cons]
            constructor
            · exact Or.inr
            · rintro (hx | hx)
              · exact absurd hx.symm hj
              · exact hx
        · dsimp only
          omega
        · dsimp only
          omega
      have hclose : closeHandle t a = .ok { t with isOpen := t.isOpen.set a false, pagesOpen := t.pagesOpen - 1 } := by
        unfold closeHandle
        rw [hopen]
      dsimp only [bind, Except.bind]
      rw [hclose]
      obtain ⟨t', g1, g2, g3, g4, g5, g6⟩ := getHandle_ok n _ hok i hi (by dsimp only; omega)
      exact ⟨t', g1, g2, g3, g4, g5, g6⟩

/-- what the files contain after some writes -/
def filesAfter (fs : List (List β)) (ws : List (Nat × β)) : List (List β) := fs.mapIdx fun i f => f ++ writtenTo i ws

theorem filesAfter_cons (fs : List (List β)) (w : Nat × β) (ws : List (Nat × β)) : filesAfter (fs.modify w.1 (· ++ [w.2])) ws = filesAfter fs (w :: ws) := by
  unfold filesAfter
  apply List.ext_getElem?
  intro i
  rw [List.getElem?_mapIdx, List.getElem?_mapIdx, List.getElem?_modify]
  cases fs[i]? with
  | none => rfl
  | some f =>
    unfold writtenTo
    by_cases h : w.1 = i
    · simp [h]
    · simp [h]

theorem countP_range : ∀ (l : List Bool), l.countP id = ((List.range l.length).filter fun i => l[i]? == some true).length := by
  intro l
  induction l with
  | nil => rfl
  | cons b l ih =>
    have e : ((fun i => (b :: l)[i]? == some true) ∘ Nat.succ) = fun i => l[i]? == some true := rfl
    rw [List.length_cons, List.range_succ_eq_map, List.filter_cons, List.filter_map, e]
    cases b
    · rw [List.countP_cons_of_neg (by simp), ih]
      simp
    · rw [List.countP_cons_of_pos (by simp), ih]
      simp

theorem openFiles_eq (n : Nat) (t : Tracker β) (h : TrackerOk n t) : openFiles t = t.order.length := by
  unfold openFiles
  rw [countP_range]
  apply List.Perm.length_eq
  rw [List.perm_ext_iff_of_nodup (List.nodup_range.filter _) h.nodup]
  intro i
  rw [h.mem, List.mem_filter, List.mem_range, beq_iff_eq]
  constructor
  · exact fun hx => hx.2
  · intro hx
    refine ⟨?_, hx⟩
    by_contra hc
    rw [List.getElem?_eq_none_iff.2 (by omega)] at hx
    exact absurd hx (by simp)

/-- all files are open, or the open files are listed -/
def Tracked (n limit : Nat) (t : Tracker β) : Prop :=
  t.limit = limit ∧ t.files.length = n ∧
  ((t.deferred = false ∧ t.isOpen = List.replicate n true ∧ n ≤ limit) ∨ (t.deferred = true ∧ TrackerOk n t))

theorem tracked_new (limit : Nat) (old : List (List β)) : Tracked old.length limit (newTracker limit old) := by
  unfold newTracker Tracked
  by_cases h : old.length ≤ limit
  · rw [if_pos h]
    refine ⟨rfl, List.length_map _, Or.inl ⟨rfl, ?_, h⟩⟩
    dsimp only
    rw [List.map_const']
  · rw [if_neg h]
    refine ⟨rfl, List.length_map _, Or.inr ⟨rfl, ⟨List.length_map _, List.length_map _, List.nodup_nil, ?_, rfl, Nat.zero_le _⟩⟩⟩
    intro i
    dsimp only
    rw [List.getElem?_map]
    cases old[i]? <;> simp

theorem tracked_open (n limit : Nat) (t : Tracker β) (h : Tracked n limit t) : openFiles t ≤ limit := by
  obtain ⟨h1, -, ⟨-, h2, h3⟩ | ⟨-, h2⟩⟩ := h
  · unfold openFiles
    have := List.countP_le_length (p := id) (l := t.isOpen)
    rw [h2, List.length_replicate] at this
    rw [h2]
    omega
  · rw [openFiles_eq n t h2, ← h1]
    exact h2.le

theorem tracked_write (n limit : Nat) (hl : 1 ≤ limit) (t : Tracker β) (h : Tracked n limit t) (w : Nat × β) (hw : w.1 < n) :
    ∃ t', trackerWrite t w = .ok t' ∧ Tracked n limit t' ∧ t'.files = t.files.modify w.1 (· ++ [w.2]) := by
  obtain ⟨h1, hf, ⟨hd, h2, h3⟩ | ⟨hd, h2⟩⟩ := h
  · have hg : trackerGet t w.1 = .ok t := by
      unfold trackerGet
      rw [hd, if_neg (by simp), if_pos (by rw [h2, List.length_replicate]; exact hw)]
    refine ⟨{ t with files := t.files.modify w.1 (· ++ [w.2]) }, ?_, ⟨h1, ?_, Or.inl ⟨hd, h2, h3⟩⟩, rfl⟩
    · unfold trackerWrite
      rw [hg]
      dsimp only [bind, Except.bind]
      rw [h2, List.getElem?_replicate, if_pos hw]
    · dsimp only
      rw [List.length_modify, hf]
  · obtain ⟨t', g1, g2, g3, g4, g5, g6⟩ := trackerGet_ok n t h2 hd (by omega) w.1 hw
    refine ⟨{ t' with files := t'.files.modify w.1 (· ++ [w.2]) }, ?_, ⟨by rw [← h1, ← g5], ?_, Or.inr ⟨by rw [← hd, ← g6], ?_⟩⟩, ?_⟩
    · unfold trackerWrite
      rw [g1]
      dsimp only [bind, Except.bind]
      rw [g3]
    · dsimp only
      rw [List.length_modify, g2.flen]
    · exact ⟨g2.len, by dsimp only; rw [List.length_modify, g2.flen], g2.nodup, g2.mem, g2.count, g2.le⟩
    · dsimp only
      rw [g4]

theorem tracked_fold (n limit : Nat) (hl : 1 ≤ limit) : ∀ (ws : List (Nat × β)) (t : Tracker β), Tracked n limit t → (∀ w ∈ ws, w.1 < n) →
    ∃ t', ws.foldlM trackerWrite t = .ok t' ∧ Tracked n limit t' ∧ t'.files = filesAfter t.files ws := by
  intro ws
  induction ws with
  | nil =>
    intro t h _
    refine ⟨t, rfl, h, ?_⟩
    unfold filesAfter writtenTo
    apply List.ext_getElem?
    intro i
    simp
  | cons w ws ih =>
    intro t h hw
    obtain ⟨t1, g1, g2, g3⟩ := tracked_write n limit hl t h w (hw w List.mem_cons_self)
    obtain ⟨t2, g4, g5, g6⟩ := ih t1 g2 fun x hx => hw x (List.mem_cons_of_mem _ hx)
    refine ⟨t2, ?_, g5, ?_⟩
    · rw [List.foldlM_cons, g1]
      exact g4
    · rw [g6, g3, filesAfter_cons]

/-- **C99** (contents and limit).  Every task of a text import gets its page files right, however many columns there are and whatever `MAX_FILES_OPEN` is, if it is not 0: for every sequence
of writes, no write meets a closed file, each file ends up with exactly what was written to it, in order, and what was in the files before is gone; at no time are more files open than
allowed, and after `close` none is.  Missing is a limit of 0. -/
theorem C99_partial (limit : Nat) (h1 : 1 ≤ limit) (old : List (List β)) (ws : List (Nat × β)) (hw : ∀ w ∈ ws, w.1 < old.length) :
    trackerRun limit old ws = .ok ((List.range old.length).map fun i => writtenTo i ws) ∧
    ∀ k, ∃ t, (ws.take k).foldlM trackerWrite (newTracker limit old) = .ok t ∧ openFiles t ≤ limit ∧ openFiles (trackerClose t) = 0 := by
  constructor
  · obtain ⟨t, g1, -, g3⟩ := tracked_fold old.length limit h1 ws _ (tracked_new limit old) hw
    unfold trackerRun
    rw [g1]
    have e : (trackerClose t).files = t.files := rfl
    dsimp only [bind, Except.bind]
    rw [e, g3]
    have e2 : (newTracker limit old).files = old.map fun _ => [] := by
      unfold newTracker
      split <;> rfl
    rw [e2]
    congr 1
    unfold filesAfter
    apply List.ext_getElem?
    intro i
    rw [List.getElem?_mapIdx, List.getElem?_map, List.getElem?_map]
    by_cases hi : i < old.length
    · rw [List.getElem?_range hi, List.getElem?_eq_getElem hi]
      rfl
    · rw [List.getElem?_eq_none_iff.2 (by omega), List.getElem?_eq_none_iff.2 (by rw [List.length_range]; omega)]
      rfl
  · intro k
    obtain ⟨t, g1, g2, -⟩ := tracked_fold old.length limit h1 (ws.take k) _ (tracked_new limit old) fun w hx => hw w (List.mem_of_mem_take hx)
    refine ⟨t, g1, tracked_open _ _ t g2, ?_⟩
    simp [openFiles, trackerClose]

/-- spec: the claim for every limit -/
def C99_statement : Prop := ∀ (limit : Nat) (old : List (List Nat)) (ws : List (Nat × Nat)), (∀ w ∈ ws, w.1 < old.length) →
  trackerRun limit old ws = .ok ((List.range old.length).map fun i => writtenTo i ws)

/-- **C99** (limit of 0): with `MAX_FILES_OPEN=0` the first write takes the head of an empty list. -/
theorem C99_fails : ¬ C99_statement := by
  intro h
  exact absurd (h 0 [[]] [(0, 7)] (by decide)) (by decide)

/-- three columns, two files open at a time -/
example : (∀ w ∈ [(0, 'a'), (1, 'b'), (2, 'c'), (0, 'd'), (1, 'e'), (2, 'f')], w.1 < [['x'], [], []].length) ∧
    trackerRun 2 [['x'], [], []] [(0, 'a'), (1, 'b'), (2, 'c'), (0, 'd'), (1, 'e'), (2, 'f')] = .ok [['a', 'd'], ['b', 'e'], ['c', 'f']] := by decide

end Tablite
