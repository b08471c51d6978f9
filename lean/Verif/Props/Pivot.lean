import Verif.Props.PivotTranspose
/-!
# C59 pivot: one row per row key, one column per column key, every cell the aggregate of its rows
-/

namespace Tablite
set_option linter.unusedSectionVars false

section
variable {κ β : Type} [DecidableEq κ]

/-! ### key numbers -/

theorem keyNo_snd (k : κ) (l : List κ) (pre : List κ) (h : l = firstOccs pre) : (keyNo k l).2 = firstOccs (pre ++ [k]) := by
  subst h
  unfold keyNo
  rw [firstOccs_snoc]
  by_cases hk : k ∈ pre
  · rw [if_pos (mem_firstOccs.2 hk), if_pos hk]
  · rw [if_neg (fun h => hk (mem_firstOccs.1 h)), if_neg hk]

/-- the position of the first occurrence of `k` -/
def posOf (k : κ) (l : List κ) : Nat := l.idxOf k

theorem keyNo_fst (k : κ) (l : List κ) : (keyNo k l).1 = posOf k (keyNo k l).2 := by
  unfold keyNo posOf
  split
  · rfl
  · rename_i h
    rw [List.idxOf_append_of_notMem h]
    simp

theorem dGroup_congr {γ δ : Type} [DecidableEq δ] (f g : κ → δ) (init : γ) (u v : κ → γ → γ) (l : List κ) (h : ∀ x ∈ l, f x = g x) (h' : ∀ x ∈ l, u x = v x) :
    dGroup f init u l = dGroup g init v l := by
  unfold dGroup
  have H : ∀ (l : List κ), (∀ x ∈ l, f x = g x) → (∀ x ∈ l, u x = v x) → ∀ d : List (δ × γ),
      l.foldl (fun d x => dUpd init (f x) (u x) d) d = l.foldl (fun d x => dUpd init (g x) (v x) d) d := by
    intro l
    induction l with
    | nil => intro _ _ d; rfl
    | cons a t ih =>
      intro h h' d
      rw [List.foldl_cons, List.foldl_cons, h a (by simp), h' a (by simp)]
      exact ih (fun x hx => h x (by simp [hx])) (fun x hx => h' x (by simp [hx])) _
  exact H l h h' []

theorem dGroup_snoc {γ δ : Type} [DecidableEq δ] (f : κ → δ) (init : γ) (u : κ → γ → γ) (l : List κ) (x : κ) :
    dGroup f init u (l ++ [x]) = dUpd init (f x) (u x) (dGroup f init u l) := by
  unfold dGroup
  rw [List.foldl_append]
  rfl

theorem firstOccs_map_firstOccs {δ : Type} [DecidableEq δ] (f : κ → δ) (l : List κ) : firstOccs ((firstOccs l).map f) = firstOccs (l.map f) := by
  induction l using List.reverseRecOn with
  | nil => rfl
  | append_singleton l a ih =>
    rw [firstOccs_snoc, List.map_append, List.map_singleton, firstOccs_snoc]
    by_cases h : a ∈ l
    · rw [if_pos h, ih, if_pos (List.mem_map_of_mem h)]
    · rw [if_neg h, List.map_append, List.map_singleton, firstOccs_snoc, ih]
      have : f a ∈ (firstOccs l).map f ↔ f a ∈ l.map f := by
        simp only [List.mem_map, mem_firstOccs]
      by_cases h' : f a ∈ l.map f
      · rw [if_pos h', if_pos (this.2 h')]
      · rw [if_neg h', if_neg (fun hh => h' (this.1 hh))]

theorem idxOf_firstOccs_snoc (l : List κ) (x a : κ) (h : x ∈ l) : posOf x (firstOccs (l ++ [a])) = posOf x (firstOccs l) := by
  unfold posOf
  rw [firstOccs_snoc]
  split
  · rfl
  · rw [List.idxOf_append_of_mem (mem_firstOccs.2 h)]

theorem posOf_lt (k : κ) (l : List κ) (h : k ∈ l) : posOf k l < l.length := List.idxOf_lt_length_iff.2 h

theorem idxOf_inj {l : List κ} {x y : κ} (hx : x ∈ l) (h : posOf x l = posOf y l) : x = y := by
  unfold posOf at h
  have h1 := List.idxOf_lt_length_iff.2 hx
  have h2 := List.getElem_idxOf h1
  have h3 := List.getElem_idxOf (x := y) (xs := l) (by rw [← h]; exact h1)
  rw [← h2]
  conv_rhs => rw [← h3]
  congr 1

end

section
variable {ν α φ : Type} [DecidableEq ν] [DecidableEq α]

/-! ### the sparse matrix -/

/-- the row key of a grouped row -/
def rkOf (r : Nat) (row : List α) : List α := row.take r
/-- the column key of a grouped row -/
def ckOf (r c : Nat) (row : List α) : List α := (row.take (r + c)).drop r

/-- the state after the grouped rows `D` -/
def pivotState (r c : Nat) (D : List (List α)) : PivotSt α :=
  { rowKeys := firstOccs (D.map (rkOf r)), colKeys := firstOccs (D.map (ckOf r c))
    records := dGroup (fun row => posOf (ckOf r c row) (firstOccs (D.map (ckOf r c)))) []
      (fun row e => dUpd [] (posOf (rkOf r row) (firstOccs (D.map (rkOf r)))) (fun _ => row.drop (r + c)) e) D }

theorem take_split (r c : Nat) (row : List α) : row.take (r + c) = rkOf r row ++ ckOf r c row := by
  unfold rkOf ckOf
  conv_lhs => rw [← List.take_append_drop r (row.take (r + c)), List.take_take, Nat.min_eq_left (by omega)]

theorem dGet_dGroup {γ δ κ : Type} [DecidableEq δ] (f : κ → δ) (init : γ) (u : κ → γ → γ) (l : List κ) (k : δ) :
    dGet k (dGroup f init u l) = if k ∈ l.map f then some ((l.filter fun x => f x = k).foldl (fun b x => u x b) init) else none := by
  rw [dGroup_eq, dGet_map]
  by_cases h : k ∈ l.map f
  · rw [if_pos h, if_pos (mem_firstOccs.2 h)]
  · rw [if_neg h, if_neg (fun hh => h (mem_firstOccs.1 hh))]

/-- the record of one column key: by row number -/
def recsOf (r c : Nat) (D : List (List α)) (cix : Nat) : List (Nat × List α) :=
  dGroup (fun row => posOf (rkOf r row) (firstOccs (D.map (rkOf r)))) [] (fun row _ => row.drop (r + c))
    (D.filter fun row => posOf (ckOf r c row) (firstOccs (D.map (ckOf r c))) = cix)

theorem records_get (r c : Nat) (D : List (List α)) (cix : Nat) : ((dGet cix (pivotState r c D).records).getD []) = recsOf r c D cix := by
  unfold pivotState recsOf
  dsimp only
  rw [dGet_dGroup]
  split
  · rfl
  · rename_i h
    have : (D.filter fun row => posOf (ckOf r c row) (firstOccs (D.map (ckOf r c))) = cix) = [] := by
      rw [List.filter_eq_nil_iff]
      intro row hrow
      simp only [decide_eq_true_eq]
      intro e
      exact h (List.mem_map.2 ⟨row, hrow, e⟩)
    rw [this]
    rfl

theorem dGet_recsOf (r c : Nat) (D : List (List α)) (rix cix : Nat) :
    (dGet rix (recsOf r c D cix)).isSome = true ↔ ∃ row ∈ D, posOf (rkOf r row) (firstOccs (D.map (rkOf r))) = rix ∧ posOf (ckOf r c row) (firstOccs (D.map (ckOf r c))) = cix := by
  unfold recsOf
  rw [dGet_dGroup]
  constructor
  · intro h
    by_cases hm : rix ∈ (D.filter fun row => posOf (ckOf r c row) (firstOccs (D.map (ckOf r c))) = cix).map fun row => posOf (rkOf r row) (firstOccs (D.map (rkOf r)))
    · obtain ⟨row, h1, h2⟩ := List.mem_map.1 hm
      obtain ⟨h1, h3⟩ := List.mem_filter.1 h1
      exact ⟨row, h1, h2, by simpa using h3⟩
    · rw [if_neg hm] at h
      cases h
  · rintro ⟨row, h1, h2, h3⟩
    rw [if_pos (List.mem_map.2 ⟨row, List.mem_filter.2 ⟨h1, by simpa using h3⟩, h2⟩)]
    rfl

theorem pivot_fold (r c : Nat) (D : List (List α)) (hnd : (D.map fun row => row.take (r + c)).Nodup) :
    D.foldlM (pivotRow r c) {} = .ok (pivotState r c D) := by
  induction D using List.reverseRecOn with
  | nil => rfl
  | append_singleton D row ih =>
    have hnd' : (D.map fun row => row.take (r + c)).Nodup := by
      rw [List.map_append] at hnd
      exact (List.nodup_append.1 hnd).1
    have hnew : ∀ row' ∈ D, row'.take (r + c) ≠ row.take (r + c) := by
      intro row' h' e
      rw [List.map_append] at hnd
      exact (List.nodup_append.1 hnd).2.2 _ (List.mem_map_of_mem h') _ (by simp) e
    rw [List.foldlM_append, ih hnd']
    show List.foldlM (pivotRow r c) (pivotState r c D) [row] = _
    rw [List.foldlM_cons]
    show (pivotRow r c (pivotState r c D) row).bind _ = _
    have hrk : (keyNo (row.take r) (pivotState r c D).rowKeys).2 = firstOccs ((D ++ [row]).map (rkOf r)) := by
      rw [List.map_append]
      exact keyNo_snd _ _ _ rfl
    have hck : (keyNo ((row.take (r + c)).drop r) (pivotState r c D).colKeys).2 = firstOccs ((D ++ [row]).map (ckOf r c)) := by
      rw [List.map_append]
      exact keyNo_snd _ _ _ rfl
    have hidr : ∀ row' ∈ D, posOf (rkOf r row') (firstOccs ((D ++ [row]).map (rkOf r))) = posOf (rkOf r row') (firstOccs (D.map (rkOf r))) := by
      intro row' h'
      rw [List.map_append]
      exact idxOf_firstOccs_snoc _ _ _ (List.mem_map_of_mem h')
    have hidc : ∀ row' ∈ D, posOf (ckOf r c row') (firstOccs ((D ++ [row]).map (ckOf r c))) = posOf (ckOf r c row') (firstOccs (D.map (ckOf r c))) := by
      intro row' h'
      rw [List.map_append]
      exact idxOf_firstOccs_snoc _ _ _ (List.mem_map_of_mem h')
    have hrecs : (pivotState r c D).records = dGroup (fun row' => posOf (ckOf r c row') (firstOccs ((D ++ [row]).map (ckOf r c)))) []
        (fun row' e => dUpd [] (posOf (rkOf r row') (firstOccs ((D ++ [row]).map (rkOf r)))) (fun _ => row'.drop (r + c)) e) D := by
      unfold pivotState
      dsimp only
      apply dGroup_congr
      · intro x hx
        rw [hidc x hx]
      · intro x hx
        funext e
        rw [hidr x hx]
    unfold pivotRow
    dsimp only
    rw [keyNo_fst, keyNo_fst, hrk, hck]
    rw [if_neg]
    · unfold pivotState at hrecs ⊢
      dsimp only at hrecs ⊢
      rw [hrecs, dGroup_snoc]
      rfl
    · intro h
      have h1 := records_get r c D (posOf ((row.take (r + c)).drop r) (firstOccs ((D ++ [row]).map (ckOf r c))))
      cases hg : dGet (posOf ((row.take (r + c)).drop r) (firstOccs ((D ++ [row]).map (ckOf r c)))) (pivotState r c D).records with
      | none => rw [hg] at h; simp at h
      | some e =>
        rw [hg] at h h1
        simp only [Option.bind_some, Option.getD_some] at h h1
        rw [h1] at h
        obtain ⟨row', h2, h3, h4⟩ := (dGet_recsOf r c D _ _).1 h
        rw [← hidr row' h2] at h3
        rw [← hidc row' h2] at h4
        have e1 := idxOf_inj (mem_firstOccs.2 (List.mem_map_of_mem (List.mem_append_left _ h2))) h3
        have e2 := idxOf_inj (mem_firstOccs.2 (List.mem_map_of_mem (List.mem_append_left _ h2))) h4
        apply hnew row' h2
        rw [take_split, take_split, e1, e2]
        rfl

/-! ### filling the columns -/

theorem setBlock (fs : List α) : ∀ (pre b post : List α) (base k : Nat), b.length = fs.length → base + k = pre.length →
    (fs.zipIdx k).foldlM (fun L f => setAt L (base + f.2) f.1) (pre ++ b ++ post) = .ok (pre ++ fs ++ post) := by
  induction fs with
  | nil =>
    intro pre b post base k hb _
    have : b = [] := List.length_eq_zero_iff.1 (by simpa using hb)
    subst this
    rfl
  | cons f rest ih =>
    intro pre b post base k hb hk
    match b, hb with
    | b0 :: bs, hb =>
      rw [List.zipIdx_cons, List.foldlM_cons]
      have e : setAt (pre ++ b0 :: bs ++ post) (base + k) f = .ok ((pre ++ [f]) ++ bs ++ post) := by
        unfold setAt
        rw [if_pos (by simp only [List.length_append, List.length_cons]; omega), hk]
        congr 1
        rw [List.append_assoc, List.set_append_right _ _ (by omega)]
        simp
      dsimp only
      rw [e]
      have := ih (pre ++ [f]) bs post base (k + 1) (by simpa using hb) (by simp only [List.length_append, List.length_singleton]; omega)
      simp only [List.append_assoc, List.singleton_append] at this ⊢
      exact this

theorem flatMap_range_length (g nR : Nat) (B : Nat → List α) (hB : ∀ i < nR, (B i).length = g) : ((List.range nR).flatMap B).length = g * nR := by
  induction nR with
  | zero => simp
  | succ n ih =>
    rw [List.range_succ, List.flatMap_append, List.length_append, ih (fun i hi => hB i (by omega))]
    simp [hB n (by omega), Nat.mul_succ]

theorem flatMap_update (nR r0 : Nat) (h : r0 < nR) (B : Nat → List α) (fs : List α) :
    ∃ post, (List.range nR).flatMap B = (List.range r0).flatMap B ++ B r0 ++ post ∧
      (List.range nR).flatMap (Function.update B r0 fs) = (List.range r0).flatMap B ++ fs ++ post := by
  obtain ⟨m, rfl⟩ : ∃ m, nR = r0 + 1 + m := ⟨nR - r0 - 1, by omega⟩
  refine ⟨((List.range m).map (r0 + 1 + ·)).flatMap B, ?_, ?_⟩
  · rw [List.range_add, List.range_succ, List.flatMap_append, List.flatMap_append]
    simp
  · rw [List.range_add, List.range_succ, List.flatMap_append, List.flatMap_append]
    congr 1
    · congr 1
      · apply List.flatMap_congr
        intro i hi
        rw [Function.update_of_ne (by have := List.mem_range.1 hi; omega)]
      · simp
    · apply List.flatMap_congr
      intro i hi
      obtain ⟨k, _, rfl⟩ := List.mem_map.1 hi
      rw [Function.update_of_ne (by omega)]

theorem fillRows_loop (g nR : Nat) (recs : List (Nat × List α)) (hnd : (recs.map (·.1)).Nodup) (h : ∀ e ∈ recs, e.1 < nR ∧ e.2.length = g)
    (B : Nat → List α) (hB : ∀ i < nR, (B i).length = g) :
    recs.foldlM (fun L e => e.2.zipIdx.foldlM (fun L f => setAt L (g * e.1 + f.2) f.1) L) ((List.range nR).flatMap B) =
      .ok ((List.range nR).flatMap fun i => (dGet i recs).getD (B i)) := by
  induction recs generalizing B with
  | nil => rfl
  | cons e rest ih =>
    obtain ⟨h1, h2⟩ := h e (by simp)
    rw [List.map_cons, List.nodup_cons] at hnd
    obtain ⟨post, p1, p2⟩ := flatMap_update nR e.1 h1 B e.2
    rw [List.foldlM_cons]
    have hs := setBlock e.2 ((List.range e.1).flatMap B) (B e.1) post (g * e.1) 0 (by rw [hB _ h1, h2])
      (by rw [flatMap_range_length g e.1 B (fun i hi => hB i (by omega))]; omega)
    rw [← p1] at hs
    rw [hs, ← p2]
    show List.foldlM _ _ rest = _
    rw [ih hnd.2 (fun x hx => h x (by simp [hx])) _ (by
      intro i hi
      by_cases hie : i = e.1
      · subst hie; simp [h2]
      · rw [Function.update_of_ne hie]; exact hB i hi)]
    congr 1
    apply List.flatMap_congr
    intro i _
    by_cases hie : i = e.1
    · subst hie
      rw [(dGet_none e.1 rest).2 hnd.1]
      obtain ⟨a, b⟩ := e
      simp [dGet]
    · rw [Function.update_of_ne hie]
      obtain ⟨a, b⟩ := e
      simp only [dGet]
      rw [if_neg (fun hh => hie hh.symm)]

theorem replicate_flatMap (nul : α) (g nR : Nat) : List.replicate (g * nR) nul = (List.range nR).flatMap fun _ => List.replicate g nul := by
  induction nR with
  | zero => simp
  | succ n ih => rw [List.range_succ, List.flatMap_append, ← ih, Nat.mul_succ, ← List.replicate_append_replicate]; simp

theorem fillRows_ok (nul : α) (g nR : Nat) (recs : List (Nat × List α)) (hnd : (recs.map (·.1)).Nodup) (h : ∀ e ∈ recs, e.1 < nR ∧ e.2.length = g) :
    fillRows nul (g * nR) g recs = .ok ((List.range nR).flatMap fun i => (dGet i recs).getD (List.replicate g nul)) := by
  unfold fillRows
  rw [replicate_flatMap]
  exact fillRows_loop g nR recs hnd h _ (by simp)

theorem map_update (nR r0 : Nat) (b : Nat → α) (v : α) :
    ((List.range nR).map b).set r0 v = (List.range nR).map (Function.update b r0 v) := by
  apply List.ext_getElem
  · simp
  · intro i h1 h2
    simp only [List.getElem_set, List.getElem_map, List.getElem_range]
    by_cases h : r0 = i
    · subst h; simp
    · rw [if_neg h, Function.update_of_ne (fun e => h e.symm)]

theorem fillCol_ok (nul : α) (g nR ix : Nat) (hix : ix < g) (recs : List (Nat × List α)) (hnd : (recs.map (·.1)).Nodup) (h : ∀ e ∈ recs, e.1 < nR ∧ e.2.length = g) :
    fillCol nul nR ix recs = .ok ((List.range nR).map fun i => ((dGet i recs).map fun fs => fs.getD ix nul).getD nul) := by
  unfold fillCol
  have H : ∀ (recs : List (Nat × List α)) (_ : (recs.map (·.1)).Nodup) (_ : ∀ e ∈ recs, e.1 < nR ∧ e.2.length = g) (b : Nat → α),
      recs.foldlM (fun L e => match e.2[ix]? with
        | some f => setAt L e.1 f
        | none => .ok L) ((List.range nR).map b) = .ok ((List.range nR).map fun i => ((dGet i recs).map fun fs => fs.getD ix nul).getD (b i)) := by
    intro recs
    induction recs with
    | nil => intro _ _ b; rfl
    | cons e rest ih =>
      intro hnd h b
      obtain ⟨h1, h2⟩ := h e (by simp)
      rw [List.map_cons, List.nodup_cons] at hnd
      rw [List.foldlM_cons]
      have hget : e.2[ix]? = some (e.2.getD ix nul) := by
        rw [List.getD_eq_getElem?_getD, List.getElem?_eq_getElem (by omega)]
        rfl
      rw [hget]
      dsimp only
      have hs : setAt ((List.range nR).map b) e.1 (e.2.getD ix nul) = .ok ((List.range nR).map (Function.update b e.1 (e.2.getD ix nul))) := by
        unfold setAt
        rw [if_pos (by simpa using h1), map_update]
      rw [hs]
      show List.foldlM _ _ rest = _
      rw [ih hnd.2 (fun x hx => h x (by simp [hx]))]
      congr 1
      apply List.map_congr_left
      intro i _
      by_cases hie : i = e.1
      · subst hie
        rw [(dGet_none e.1 rest).2 hnd.1]
        obtain ⟨a, b⟩ := e
        simp [dGet]
      · rw [Function.update_of_ne hie]
        obtain ⟨a, b⟩ := e
        simp only [dGet]
        rw [if_neg (fun hh => hie hh.symm)]
  have := H recs hnd h (fun _ => nul)
  rw [← this]
  congr 1
  apply List.ext_getElem <;> simp

/-! ### names -/

/-- the names given to columns added one after the other -/
def nameSeq (mk : ν → Nat → ν) : List ν → List ν → List ν
  | _, [] => []
  | seen, d :: ds => uniqueName mk d seen :: nameSeq mk (seen ++ [uniqueName mk d seen]) ds

theorem nameSeq_length (mk : ν → Nat → ν) (seen ds : List ν) : (nameSeq mk seen ds).length = ds.length := by
  induction ds generalizing seen with
  | nil => rfl
  | cons d ds ih => simp [nameSeq, ih]

theorem nameSeq_nodup (mk : ν → Nat → ν) (hmk : ∀ d a b, mk d a = mk d b → a = b) (seen ds : List ν) (h : seen.Nodup) : (seen ++ nameSeq mk seen ds).Nodup := by
  induction ds generalizing seen with
  | nil => simpa [nameSeq] using h
  | cons d ds ih =>
    have h1 := (C47_unique_name mk d seen (hmk d)).1
    have := ih (seen ++ [uniqueName mk d seen]) (by
      rw [List.nodup_append]
      refine ⟨h, by simp, ?_⟩
      intro a ha b hb e
      simp only [List.mem_singleton] at hb
      subst hb; subst e
      exact h1 ha)
    simpa [nameSeq] using this

theorem nameSeq_id (mk : ν → Nat → ν) (hmk : ∀ d a b, mk d a = mk d b → a = b) (seen ds : List ν) (h : (seen ++ ds).Nodup) : nameSeq mk seen ds = ds := by
  induction ds generalizing seen with
  | nil => rfl
  | cons d ds ih =>
    have hd : d ∉ seen := by
      intro hh
      exact (List.nodup_append.1 h).2.2 _ hh _ (by simp) rfl
    have e := (C47_unique_name mk d seen (hmk d)).2.1 hd
    unfold nameSeq
    rw [e, ih _ (by simpa using h)]

theorem nameSeq_append (mk : ν → Nat → ν) (seen a b : List ν) : nameSeq mk seen (a ++ b) = nameSeq mk seen a ++ nameSeq mk (seen ++ nameSeq mk seen a) b := by
  induction a generalizing seen with
  | nil => simp [nameSeq]
  | cons d ds ih => simp [nameSeq, ih]

theorem addUnique_new (ps : Nat) (mk : ν → Nat → ν) (hmk : ∀ d a b, mk d a = mk d b → a = b) (t : Tbl ν α) (d : ν) (v : List α) :
    addUnique ps mk t d v = t ++ [(uniqueName mk d (t.map (·.1)), paginate ps v)] := by
  unfold addUnique tblSet
  rw [dUpd_new _ _ _ _ (C47_unique_name mk d _ (hmk d)).1]

theorem addUnique_fold (ps : Nat) (hps : 0 < ps) (mk : ν → Nat → ν) (hmk : ∀ d a b, mk d a = mk d b → a = b) (cols : List (ν × List α)) (t : Tbl ν α) :
    tview (cols.foldl (fun t c => addUnique ps mk t c.1 c.2) t) = tview t ++ (nameSeq mk (t.map (·.1)) (cols.map (·.1))).zip (cols.map (·.2)) := by
  induction cols generalizing t with
  | nil => simp [nameSeq]
  | cons c rest ih =>
    rw [List.foldl_cons, ih, addUnique_new ps mk hmk]
    simp [tview, nameSeq, colIter_paginate ps hps]

theorem tview_names (t : Tbl ν α) : (tview t).map (·.1) = t.map (·.1) := by
  unfold tview
  rw [List.map_map]
  rfl

/-! ### cells by key -/

theorem posOf_getElem {κ : Type} [DecidableEq κ] (l : List κ) (h : l.Nodup) (i : Nat) (hi : i < l.length) : posOf l[i] l = i := by
  unfold posOf
  exact List.Nodup.idxOf_getElem h i hi

theorem range_keys {κ β : Type} [DecidableEq κ] (l : List κ) (h : l.Nodup) (G : Nat → β) (H : κ → β) (hGH : ∀ k ∈ l, G (posOf k l) = H k) :
    (List.range l.length).map G = l.map H := by
  apply List.ext_getElem
  · simp
  · intro i h1 h2
    simp only [List.getElem_map, List.getElem_range]
    rw [← hGH _ (List.getElem_mem _), posOf_getElem l h]

theorem range_flatMap_keys {κ β : Type} [DecidableEq κ] (l : List κ) (h : l.Nodup) (G : Nat → List β) (H : κ → List β) (hGH : ∀ k ∈ l, G (posOf k l) = H k) :
    (List.range l.length).flatMap G = l.flatMap H := by
  rw [List.flatMap_def, List.flatMap_def, range_keys l h G H hGH]

theorem foldl_const {β γ : Type} (f : β → γ) (v : γ) (l : List β) (hne : l ≠ []) (h : ∀ x ∈ l, f x = v) (init : γ) : l.foldl (fun _ x => f x) init = v := by
  induction l generalizing init with
  | nil => exact absurd rfl hne
  | cons a t ih =>
    rw [List.foldl_cons]
    by_cases ht : t = []
    · subst ht; exact h a (by simp)
    · exact ih ht (fun x hx => h x (by simp [hx])) _

/-- the grouped rows: key and values -/
def keyed (F : List α → List α) (K : List (List α)) : List (List α) := K.map fun k => k ++ F k

variable (r c : Nat) (F : List α → List α) (K : List (List α))

theorem keyed_take (hK : ∀ k ∈ K, k.length = r + c) (row : List α) (h : row ∈ keyed F K) : row.take (r + c) ∈ K ∧ row = row.take (r + c) ++ F (row.take (r + c)) := by
  obtain ⟨k, hk, rfl⟩ := List.mem_map.1 h
  have : (k ++ F k).take (r + c) = k := List.take_left' (hK k hk)
  rw [this]
  exact ⟨hk, rfl⟩

theorem keyed_drop (hK : ∀ k ∈ K, k.length = r + c) (row : List α) (h : row ∈ keyed F K) : row.drop (r + c) = F (row.take (r + c)) := by
  obtain ⟨k, hk, rfl⟩ := List.mem_map.1 h
  rw [List.take_left' (hK k hk), List.drop_left' (hK k hk)]

theorem recs_nodup (D : List (List α)) (cix : Nat) : ((recsOf r c D cix).map (·.1)).Nodup := by
  unfold recsOf
  rw [dGroup_eq, List.map_map]
  have : ((fun x : Nat × List α => x.1) ∘ fun k => (k, ((D.filter fun row => posOf (ckOf r c row) (firstOccs (D.map (ckOf r c))) = cix).filter
      fun x => posOf (rkOf r x) (firstOccs (D.map (rkOf r))) = k).foldl (fun b x => (fun row _ => row.drop (r + c)) x b) [])) = id := rfl
  rw [this, List.map_id]
  exact nodup_firstOccs _

theorem recs_bound (g : Nat) (hK : ∀ k ∈ K, k.length = r + c) (hF : ∀ k ∈ K, (F k).length = g) (cix : Nat) :
    ∀ e ∈ recsOf r c (keyed F K) cix, e.1 < (firstOccs ((keyed F K).map (rkOf r))).length ∧ e.2.length = g := by
  intro e he
  unfold recsOf at he
  rw [dGroup_eq] at he
  obtain ⟨k, hk, rfl⟩ := List.mem_map.1 he
  obtain ⟨row, hrow, rfl⟩ := List.mem_map.1 (mem_firstOccs.1 hk)
  have hrow' := (List.mem_filter.1 hrow).1
  refine ⟨posOf_lt _ _ (mem_firstOccs.2 (List.mem_map_of_mem hrow')), ?_⟩
  have H : ∀ (l : List (List α)), l ≠ [] → (∀ x ∈ l, (x.drop (r + c)).length = g) → ∀ init : List α, (l.foldl (fun _ x => x.drop (r + c)) init).length = g := by
    intro l
    induction l with
    | nil => intro h; exact absurd rfl h
    | cons a t ih =>
      intro _ h init
      rw [List.foldl_cons]
      by_cases ht : t = []
      · subst ht; exact h a (by simp)
      · exact ih ht (fun x hx => h x (by simp [hx])) _
  apply H
  · intro h0
    have : row ∈ ([] : List (List α)) := by rw [← h0]; exact List.mem_filter.2 ⟨hrow, by simp⟩
    simp at this
  · intro x hx
    have hx' := (List.mem_filter.1 (List.mem_filter.1 hx).1).1
    rw [keyed_drop r c F K hK x hx']
    exact hF _ (keyed_take r c F K hK x hx').1

theorem recs_get (hK : ∀ k ∈ K, k.length = r + c) (rk ck : List α) (hrl : rk.length = r) :
    dGet (posOf rk (firstOccs ((keyed F K).map (rkOf r)))) (recsOf r c (keyed F K) (posOf ck (firstOccs ((keyed F K).map (ckOf r c))))) =
      if rk ++ ck ∈ K then some (F (rk ++ ck)) else none := by
  have hboth : ∀ row ∈ ((keyed F K).filter fun row => posOf (ckOf r c row) (firstOccs ((keyed F K).map (ckOf r c))) = posOf ck (firstOccs ((keyed F K).map (ckOf r c)))),
      posOf (rkOf r row) (firstOccs ((keyed F K).map (rkOf r))) = posOf rk (firstOccs ((keyed F K).map (rkOf r))) → row.take (r + c) = rk ++ ck := by
    intro row hrow h
    obtain ⟨h1, h2⟩ := List.mem_filter.1 hrow
    have e1 := idxOf_inj (mem_firstOccs.2 (List.mem_map_of_mem h1)) h
    have e2 := idxOf_inj (mem_firstOccs.2 (List.mem_map_of_mem h1)) (of_decide_eq_true h2)
    rw [take_split, e1, e2]
  unfold recsOf
  rw [dGet_dGroup]
  by_cases hm : rk ++ ck ∈ K
  · have hrow : (rk ++ ck) ++ F (rk ++ ck) ∈ keyed F K := List.mem_map.2 ⟨_, hm, rfl⟩
    have e1 : rkOf r ((rk ++ ck) ++ F (rk ++ ck)) = rk := by
      unfold rkOf
      rw [List.append_assoc, List.take_left' hrl]
    have e2 : ckOf r c ((rk ++ ck) ++ F (rk ++ ck)) = ck := by
      unfold ckOf
      rw [List.take_left' (hK _ hm), List.drop_left' hrl]
    have hin : (rk ++ ck) ++ F (rk ++ ck) ∈ ((keyed F K).filter fun row => posOf (ckOf r c row) (firstOccs ((keyed F K).map (ckOf r c))) = posOf ck (firstOccs ((keyed F K).map (ckOf r c)))) :=
      List.mem_filter.2 ⟨hrow, by rw [e2]; simp⟩
    rw [if_pos (List.mem_map.2 ⟨_, hin, by rw [e1]⟩), if_pos hm]
    congr 1
    apply foldl_const (fun row : List α => row.drop (r + c))
    · intro h0
      have : (rk ++ ck) ++ F (rk ++ ck) ∈ ([] : List (List α)) := by rw [← h0]; exact List.mem_filter.2 ⟨hin, by rw [e1]; simp⟩
      simp at this
    · intro x hx
      obtain ⟨h1, h2⟩ := List.mem_filter.1 hx
      rw [keyed_drop r c F K hK x (List.mem_filter.1 h1).1, hboth x h1 (of_decide_eq_true h2)]
  · rw [if_neg hm, if_neg]
    intro h
    obtain ⟨row, h1, h2⟩ := List.mem_map.1 h
    apply hm
    rw [← hboth row h1 h2]
    exact (keyed_take r c F K hK row (List.mem_filter.1 h1).1).1

end

/-! ## C59 -/

section
variable {ν α φ σ : Type} [DecidableEq ν] [DecidableEq α]

/-- the values of all functions for one row key and one column key: those of the source rows with both keys, nothing if there are none -/
def pivotCell (nul : α) (t : Tbl ν α) (n : Nat) (rows columns : List ν) (functions : List (ν × φ)) (agg : ν × φ → List α → α) (rk ck : List α) : List α :=
  if ∃ i < n, keyAt nul t rows i = rk ∧ keyAt nul t columns i = ck then functions.map fun f => agg f (rk ++ ck) else functions.map fun _ => nul

/-- the columns of a pivot with values as rows: for every row key one row per function -/
def pivotRowsView (fnVal : ν × φ → α) (nul : α) (t : Tbl ν α) (n : Nat) (rows columns : List ν) (functions : List (ν × φ)) (agg : ν × φ → List α → α) : List (List α) :=
  ((List.range rows.length).map fun j => (firstOccs (keyRows nul t rows n)).flatMap fun rk => functions.map fun _ => rk.getD j nul) ++
  [(firstOccs (keyRows nul t rows n)).flatMap fun _ => functions.map fnVal] ++
  (firstOccs (keyRows nul t columns n)).map fun ck => (firstOccs (keyRows nul t rows n)).flatMap fun rk => pivotCell nul t n rows columns functions agg rk ck

/-- the columns of a pivot with values as columns: for every row key one row, for every column key one column per function -/
def pivotColsView (nul : α) (t : Tbl ν α) (n : Nat) (rows columns : List ν) (functions : List (ν × φ)) (agg : ν × φ → List α → α) : List (List α) :=
  ((List.range rows.length).map fun j => (firstOccs (keyRows nul t rows n)).map fun rk => rk.getD j nul) ++
  (firstOccs (keyRows nul t columns n)).flatMap fun ck => (List.range functions.length).map fun ix =>
    (firstOccs (keyRows nul t rows n)).map fun rk => (pivotCell nul t n rows columns functions agg rk ck).getD ix nul

theorem keyRows_append (nul : α) (t : Tbl ν α) (rows columns : List ν) (n : Nat) (rk ck : List α) (hrk : rk.length = rows.length) :
    rk ++ ck ∈ keyRows nul t (rows ++ columns) n ↔ ∃ i < n, keyAt nul t rows i = rk ∧ keyAt nul t columns i = ck := by
  unfold keyRows keyAt
  simp only [List.mem_map, List.mem_range, List.map_append]
  constructor
  · rintro ⟨i, hi, h⟩
    obtain ⟨h1, h2⟩ := List.append_inj h (by simpa using hrk.symm)
    exact ⟨i, hi, h1, h2⟩
  · rintro ⟨i, hi, h1, h2⟩
    exact ⟨i, hi, by rw [h1, h2]⟩

theorem mem_keyRows_length (nul : α) (t : Tbl ν α) (keys : List ν) (n : Nat) (k : List α) (h : k ∈ keyRows nul t keys n) : k.length = keys.length := by
  unfold keyRows at h
  obtain ⟨i, _, rfl⟩ := List.mem_map.1 h
  simp

/-- the grouped table, row by row -/
theorem grouped_rows (nul : α) (nm : φ → ν → ν) (t : Tbl ν α) (n : Nat) (keys : List ν) (functions : List (ν × φ)) (agg : ν × φ → List α → α)
    (hsome : keys.length + functions.length ≠ 0) (g : Tbl ν α) (hg : tview g = groupView nul nm t n keys functions agg) :
    tblLen g = (firstOccs (keyRows nul t keys n)).length ∧ g.length = keys.length + functions.length ∧
    tblRows nul g = .ok (keyed (fun k => functions.map fun f => agg f k) (firstOccs (keyRows nul t keys n))) := by
  have hlen : g.length = keys.length + functions.length := by
    have : (tview g).length = g.length := by simp [tview]
    rw [← this, hg]
    simp [groupView]
  have hrect : Rect g (firstOccs (keyRows nul t keys n)).length := by
    intro c hc
    have hm : (c.1, colIter c.2) ∈ tview g := List.mem_map.2 ⟨c, hc, rfl⟩
    rw [hg] at hm
    rw [colLen_eq, ← colIter_eq]
    unfold groupView at hm
    rcases List.mem_append.1 hm with h | h
    · obtain ⟨k, _, e⟩ := List.mem_map.1 h
      rw [← (Prod.mk.inj e).2]; simp
    · obtain ⟨k, _, e⟩ := List.mem_map.1 h
      rw [← (Prod.mk.inj e).2]; simp
  have hl := tblLen_rect g _ hrect (by intro e; subst e; exact hsome (by simpa using hlen.symm))
  refine ⟨hl, hlen, ?_⟩
  rw [C15_rows, hl]
  congr 1
  apply List.ext_getElem
  · simp [keyed]
  · intro i h1 h2
    simp only [List.getElem_map, List.getElem_range, keyed]
    have hi : i < (firstOccs (keyRows nul t keys n)).length := by simpa using h1
    have e : (g.map fun c => (colIter c.2).getD i nul) = (tview g).map fun c => c.2.getD i nul := by
      unfold tview
      rw [List.map_map]
      rfl
    rw [e, hg]
    unfold groupView
    rw [List.map_append, List.map_map, List.map_map]
    congr 1
    · have hk := mem_keyRows_length nul t keys n _ (mem_firstOccs.1 (List.getElem_mem hi))
      apply List.ext_getElem
      · simp [hk]
      · intro j h3 h4
        simp [List.getD_eq_getElem?_getD, List.getElem?_eq_getElem hi, List.getElem?_eq_getElem h4]
    · apply List.map_congr_left
      intro f _
      simp [List.getD_eq_getElem?_getD, List.getElem?_eq_getElem hi]

/-- the keys of the sparse matrix are the keys of the source -/
theorem pivot_keys (nul : α) (t : Tbl ν α) (n : Nat) (rows columns : List ν) (F : List α → List α) :
    firstOccs ((keyed F (firstOccs (keyRows nul t (rows ++ columns) n))).map (rkOf rows.length)) = firstOccs (keyRows nul t rows n) ∧
    firstOccs ((keyed F (firstOccs (keyRows nul t (rows ++ columns) n))).map (ckOf rows.length columns.length)) = firstOccs (keyRows nul t columns n) := by
  have hlen : ∀ k ∈ firstOccs (keyRows nul t (rows ++ columns) n), k.length = rows.length + columns.length := by
    intro k hk
    rw [mem_keyRows_length nul t _ n k (mem_firstOccs.1 hk), List.length_append]
  constructor
  · have : (keyed F (firstOccs (keyRows nul t (rows ++ columns) n))).map (rkOf rows.length) = (firstOccs (keyRows nul t (rows ++ columns) n)).map fun k => k.take rows.length := by
      unfold keyed
      rw [List.map_map]
      apply List.map_congr_left
      intro k hk
      show (k ++ F k).take rows.length = _
      rw [List.take_append_of_le_length (by have := hlen k hk; omega)]
    rw [this, firstOccs_map_firstOccs]
    congr 1
    unfold keyRows
    rw [List.map_map]
    apply List.map_congr_left
    intro i _
    simp only [Function.comp_apply, List.map_append]
    rw [List.take_left' (by simp)]
  · have : (keyed F (firstOccs (keyRows nul t (rows ++ columns) n))).map (ckOf rows.length columns.length) = (firstOccs (keyRows nul t (rows ++ columns) n)).map fun k => k.drop rows.length := by
      unfold keyed
      rw [List.map_map]
      apply List.map_congr_left
      intro k hk
      show ((k ++ F k).take (rows.length + columns.length)).drop rows.length = _
      rw [List.take_left' (hlen k hk)]
    rw [this, firstOccs_map_firstOccs]
    congr 1
    unfold keyRows
    rw [List.map_map]
    apply List.map_congr_left
    intro i _
    simp only [Function.comp_apply, List.map_append]
    rw [List.drop_left' (by simp)]

theorem keyRows_ne (nul : α) (t : Tbl ν α) (keys : List ν) (n : Nat) (hn : 0 < n) : firstOccs (keyRows nul t keys n) ≠ [] := by
  intro h
  have : keyAt nul t keys 0 ∈ firstOccs (keyRows nul t keys n) := mem_firstOccs.2 (List.mem_map.2 ⟨0, List.mem_range.2 hn, rfl⟩)
  rw [h] at this
  simp at this

theorem flatMap_const_length {β : Type} (l : List β) (g : Nat) (f : β → List α) (h : ∀ x ∈ l, (f x).length = g) : (l.flatMap f).length = g * l.length := by
  induction l with
  | nil => simp
  | cons a u ih =>
    rw [List.flatMap_cons, List.length_append, h a (by simp), ih (fun x hx => h x (by simp [hx])), List.length_cons, Nat.mul_succ]
    omega

/-- the column of one column key, with values as rows -/
theorem pivot_column (nul : α) (t : Tbl ν α) (n : Nat) (rows columns : List ν) (functions : List (ν × φ)) (agg : ν × φ → List α → α) (ck : List α)
    (hck : ck ∈ firstOccs (keyRows nul t columns n)) :
    fillRows nul (functions.length * (firstOccs (keyRows nul t rows n)).length) functions.length
      (recsOf rows.length columns.length (keyed (fun k => functions.map fun f => agg f k) (firstOccs (keyRows nul t (rows ++ columns) n)))
        (posOf ck (firstOccs (keyRows nul t columns n)))) =
      .ok ((firstOccs (keyRows nul t rows n)).flatMap fun rk => pivotCell nul t n rows columns functions agg rk ck) := by
  obtain ⟨e1, e2⟩ := pivot_keys nul t n rows columns (fun k => functions.map fun f => agg f k)
  have hK : ∀ k ∈ firstOccs (keyRows nul t (rows ++ columns) n), k.length = rows.length + columns.length := by
    intro k hk
    rw [mem_keyRows_length nul t _ n k (mem_firstOccs.1 hk), List.length_append]
  have hb := recs_bound rows.length columns.length (fun k => functions.map fun f => agg f k) _ functions.length hK (by intros; simp)
    (posOf ck (firstOccs (keyRows nul t columns n)))
  rw [e1] at hb
  rw [fillRows_ok nul functions.length _ _ (recs_nodup _ _ _ _) hb]
  congr 1
  apply range_flatMap_keys _ (nodup_firstOccs _)
  intro rk hrk
  have hrl := mem_keyRows_length nul t rows n rk (mem_firstOccs.1 hrk)
  have hg := recs_get rows.length columns.length (fun k => functions.map fun f => agg f k) _ hK rk ck hrl
  rw [e1, e2] at hg
  rw [hg]
  unfold pivotCell
  have hiff : rk ++ ck ∈ firstOccs (keyRows nul t (rows ++ columns) n) ↔ _ := (mem_firstOccs).trans (keyRows_append nul t rows columns n rk ck hrl)
  by_cases h : rk ++ ck ∈ firstOccs (keyRows nul t (rows ++ columns) n)
  · rw [if_pos h, if_pos (hiff.1 h), Option.getD_some]
  · rw [if_neg h, if_neg (fun hh => h (hiff.2 hh)), Option.getD_none]
    simp

/-- the columns of one column key, with values as columns -/
theorem pivot_columns (nul : α) (t : Tbl ν α) (n : Nat) (rows columns : List ν) (functions : List (ν × φ)) (agg : ν × φ → List α → α) (ck : List α)
    (ix : Nat) (hix : ix < functions.length) :
    fillCol nul (firstOccs (keyRows nul t rows n)).length ix
      (recsOf rows.length columns.length (keyed (fun k => functions.map fun f => agg f k) (firstOccs (keyRows nul t (rows ++ columns) n)))
        (posOf ck (firstOccs (keyRows nul t columns n)))) =
      .ok ((firstOccs (keyRows nul t rows n)).map fun rk => (pivotCell nul t n rows columns functions agg rk ck).getD ix nul) := by
  obtain ⟨e1, e2⟩ := pivot_keys nul t n rows columns (fun k => functions.map fun f => agg f k)
  have hK : ∀ k ∈ firstOccs (keyRows nul t (rows ++ columns) n), k.length = rows.length + columns.length := by
    intro k hk
    rw [mem_keyRows_length nul t _ n k (mem_firstOccs.1 hk), List.length_append]
  have hb := recs_bound rows.length columns.length (fun k => functions.map fun f => agg f k) _ functions.length hK (by intros; simp)
    (posOf ck (firstOccs (keyRows nul t columns n)))
  rw [e1] at hb
  rw [fillCol_ok nul functions.length _ ix hix _ (recs_nodup _ _ _ _) hb]
  congr 1
  apply range_keys _ (nodup_firstOccs _)
  intro rk hrk
  have hrl := mem_keyRows_length nul t rows n rk (mem_firstOccs.1 hrk)
  have hg := recs_get rows.length columns.length (fun k => functions.map fun f => agg f k) _ hK rk ck hrl
  rw [e1, e2] at hg
  rw [hg]
  unfold pivotCell
  have hiff : rk ++ ck ∈ firstOccs (keyRows nul t (rows ++ columns) n) ↔ _ := (mem_firstOccs).trans (keyRows_append nul t rows columns n rk ck hrl)
  by_cases h : rk ++ ck ∈ firstOccs (keyRows nul t (rows ++ columns) n)
  · rw [if_pos h, if_pos (hiff.1 h)]
    rfl
  · rw [if_neg h, if_neg (fun hh => h (hiff.2 hh))]
    simp [List.getD_eq_getElem?_getD, hix]

/-- the sparse matrix of the grouped table -/
theorem pivot_matrix (nul : α) (nm : φ → ν → ν) (t : Tbl ν α) (n : Nat) (hn : 0 < n) (rows columns : List ν) (functions : List (ν × φ)) (agg : ν × φ → List α → α)
    (hsome : (rows ++ columns).length + functions.length ≠ 0) (g : Tbl ν α) (hg : tview g = groupView nul nm t n (rows ++ columns) functions agg) :
    ∃ s : PivotSt α, (∀ (ps : Nat) (mk : ν → Nat → ν) (N : PivotNames ν α φ) (asRows : Bool), pivot ps mk N nul (.ok g) rows columns functions asRows =
        if asRows then pivotAsRows ps mk N nul rows columns functions s else pivotAsCols ps mk N nul rows columns functions s) ∧
      s.rowKeys = firstOccs (keyRows nul t rows n) ∧ s.colKeys = firstOccs (keyRows nul t columns n) ∧
      ∀ cix, (dGet cix s.records).getD [] =
        recsOf rows.length columns.length (keyed (fun k => functions.map fun f => agg f k) (firstOccs (keyRows nul t (rows ++ columns) n))) cix := by
  obtain ⟨h1, h2, h3⟩ := grouped_rows nul nm t n (rows ++ columns) functions agg hsome g hg
  obtain ⟨e1, e2⟩ := pivot_keys nul t n rows columns (fun k => functions.map fun f => agg f k)
  have hK : ∀ k ∈ firstOccs (keyRows nul t (rows ++ columns) n), k.length = rows.length + columns.length := by
    intro k hk
    rw [mem_keyRows_length nul t _ n k (mem_firstOccs.1 hk), List.length_append]
  refine ⟨pivotState rows.length columns.length (keyed (fun k => functions.map fun f => agg f k) (firstOccs (keyRows nul t (rows ++ columns) n))), ?_, e1, e2,
    fun cix => records_get _ _ _ cix⟩
  intro ps mk N asRows
  unfold pivot
  simp only [bind, Except.bind]
  rw [if_neg (by rw [h1]; exact fun h => keyRows_ne nul t (rows ++ columns) n hn (List.length_eq_zero_iff.1 h)), h3]
  dsimp only
  rw [pivot_fold rows.length columns.length _ (by
    unfold keyed
    rw [List.map_map]
    have : ∀ k ∈ firstOccs (keyRows nul t (rows ++ columns) n), ((fun row : List α => row.take (rows.length + columns.length)) ∘ fun k => k ++ functions.map fun f => agg f k) k = k := by
      intro k hk
      exact List.take_left' (hK k hk)
    rw [List.map_congr_left this]
    simpa using nodup_firstOccs _)]
  dsimp only
  have hl : g.length - (rows.length + columns.length) = functions.length := by rw [h2, List.length_append]; omega
  rw [hl, List.take_length]

theorem foldlM_addUnique {β : Type} (ps : Nat) (mk : ν → Nat → ν) (nameOf : β → ν) (fill : β → Except Err (List α)) (val : β → List α) (l : List β)
    (h : ∀ x ∈ l, fill x = .ok (val x)) (t : Tbl ν α) :
    l.foldlM (fun res x => (fill x).bind fun L => Except.ok (addUnique ps mk res (nameOf x) L)) t =
      .ok ((l.map fun x => (nameOf x, val x)).foldl (fun t c => addUnique ps mk t c.1 c.2) t) := by
  induction l generalizing t with
  | nil => rfl
  | cons a u ih =>
    rw [List.foldlM_cons, h a (by simp), List.map_cons, List.foldl_cons]
    exact ih (fun x hx => h x (by simp [hx])) _

theorem zipIdx_pos {κ : Type} [DecidableEq κ] (l : List κ) (h : l.Nodup) (x : κ × Nat) (hx : x ∈ l.zipIdx) : x.1 ∈ l ∧ x.2 = posOf x.1 l := by
  obtain ⟨i, hi, e⟩ := List.mem_iff_getElem.1 hx
  simp only [List.getElem_zipIdx, Nat.zero_add] at e
  subst e
  simp only [List.length_zipIdx] at hi
  exact ⟨List.getElem_mem _, (posOf_getElem l h i hi).symm⟩

/-- a pivot on a right group-by -/
theorem pivot_of_groups (ps : Nat) (hps : 0 < ps) (mk : ν → Nat → ν) (hmk : ∀ d a b, mk d a = mk d b → a = b) (N : PivotNames ν α φ) (nul : α) (nm : φ → ν → ν) (t : Tbl ν α) (n : Nat) (hn : 0 < n)
    (rows columns : List ν) (functions : List (ν × φ)) (hsome : (rows ++ columns).length + functions.length ≠ 0) (agg : ν × φ → List α → α) (r : Except Err (Tbl ν α)) (g : Tbl ν α) (hg : r = .ok g)
    (hv : tview g = groupView nul nm t n (rows ++ columns) functions agg) :
    ∃ t' names, pivot ps mk N nul r rows columns functions true = .ok t' ∧
      tview t' = names.zip (pivotRowsView N.fnVal nul t n rows columns functions agg) ∧
      names.length = rows.length + 1 + (firstOccs (keyRows nul t columns n)).length ∧ names.Nodup ∧
      ((rows ++ [N.function] ++ (firstOccs (keyRows nul t columns n)).map (N.keyName columns)).Nodup →
        names = rows ++ [N.function] ++ (firstOccs (keyRows nul t columns n)).map (N.keyName columns)) := by
  obtain ⟨s, hs, hrk, hck, hrec⟩ := pivot_matrix nul nm t n hn rows columns functions agg hsome g hv
  rw [hg, hs]
  rw [if_pos rfl]
  unfold pivotAsRows
  dsimp only
  rw [hrk, hck]
  have hlen : ((((List.range rows.length).map fun j => (firstOccs (keyRows nul t rows n)).flatMap fun k => functions.map fun _ => k.getD j nul) ++
      [(firstOccs (keyRows nul t rows n)).flatMap fun _ => functions.map N.fnVal]).headD []).length =
      functions.length * (firstOccs (keyRows nul t rows n)).length := by
    cases hr : rows.length with
    | zero => exact flatMap_const_length _ _ _ (by simp)
    | succ m =>
      rw [List.range_succ_eq_map]
      exact flatMap_const_length _ _ _ (by simp)
  rw [hlen]
  have hfold := foldlM_addUnique ps mk (fun x : List α × Nat => N.keyName columns x.1)
    (fun x => fillRows nul (functions.length * (firstOccs (keyRows nul t rows n)).length) functions.length ((dGet x.2 s.records).getD []))
    (fun x => (firstOccs (keyRows nul t rows n)).flatMap fun rk => pivotCell nul t n rows columns functions agg rk x.1)
    (firstOccs (keyRows nul t columns n)).zipIdx (by
      intro x hx
      obtain ⟨h1, h2⟩ := zipIdx_pos _ (nodup_firstOccs _) x hx
      rw [hrec, h2]
      exact pivot_column nul t n rows columns functions agg x.1 h1)
  refine ⟨_, nameSeq mk [] (rows ++ [N.function] ++ (firstOccs (keyRows nul t columns n)).map (N.keyName columns)), hfold _, ?_, ?_, ?_, ?_⟩
  · rw [← List.foldl_append, addUnique_fold ps hps mk hmk]
    simp only [tview, List.map_nil, List.nil_append]
    have h1 : ((rows ++ [N.function]).zip (((List.range rows.length).map fun j => (firstOccs (keyRows nul t rows n)).flatMap fun k => functions.map fun _ => k.getD j nul) ++
        [(firstOccs (keyRows nul t rows n)).flatMap fun _ => functions.map N.fnVal])).map (·.1) = rows ++ [N.function] := by
      rw [List.map_fst_zip]
      simp
    have h2 : ((rows ++ [N.function]).zip (((List.range rows.length).map fun j => (firstOccs (keyRows nul t rows n)).flatMap fun k => functions.map fun _ => k.getD j nul) ++
        [(firstOccs (keyRows nul t rows n)).flatMap fun _ => functions.map N.fnVal])).map (·.2) = ((List.range rows.length).map fun j => (firstOccs (keyRows nul t rows n)).flatMap fun k => functions.map fun _ => k.getD j nul) ++
        [(firstOccs (keyRows nul t rows n)).flatMap fun _ => functions.map N.fnVal] := by
      rw [List.map_snd_zip]
      simp
    have hz : ∀ (β : Type) (f : List α → β), ((firstOccs (keyRows nul t columns n)).zipIdx.map fun x => f x.1) = (firstOccs (keyRows nul t columns n)).map f := by
      intro β f
      apply List.ext_getElem <;> simp
    rw [List.map_append, List.map_append, h1, h2, List.map_map, List.map_map]
    have z1 := hz _ (N.keyName columns)
    have z2 := hz _ fun ck => (firstOccs (keyRows nul t rows n)).flatMap fun rk => pivotCell nul t n rows columns functions agg rk ck
    have z1' : ((firstOccs (keyRows nul t columns n)).zipIdx.map ((fun x : ν × List α => x.1) ∘ fun x => (N.keyName columns x.1, (firstOccs (keyRows nul t rows n)).flatMap fun rk => pivotCell nul t n rows columns functions agg rk x.1))) = (firstOccs (keyRows nul t columns n)).map (N.keyName columns) := z1
    have z2' : ((firstOccs (keyRows nul t columns n)).zipIdx.map ((fun x : ν × List α => x.2) ∘ fun x => (N.keyName columns x.1, (firstOccs (keyRows nul t rows n)).flatMap fun rk => pivotCell nul t n rows columns functions agg rk x.1))) = (firstOccs (keyRows nul t columns n)).map fun ck => (firstOccs (keyRows nul t rows n)).flatMap fun rk => pivotCell nul t n rows columns functions agg rk ck := z2
    rw [z1', z2']
    rfl
  · rw [nameSeq_length]
    simp
    omega
  · have := nameSeq_nodup mk hmk [] (rows ++ [N.function] ++ (firstOccs (keyRows nul t columns n)).map (N.keyName columns)) List.nodup_nil
    simpa using this
  · intro h
    exact nameSeq_id mk hmk [] _ (by simpa using h)

/-- C59 with values as rows: one row per row key and function, one column per column key, each cell the value of the function on exactly the source rows with
both keys.  Missing from the full statement: tables whose columns have different page layouts, where the group-by itself is wrong (C33). -/
theorem C59_rows_partial (ps : Nat) (hps : 0 < ps) (mk : ν → Nat → ν) (hmk : ∀ d a b, mk d a = mk d b → a = b) (N : PivotNames ν α φ) (nul : α)
    (init : φ → σ) (upd : φ → σ → α → Except Err σ) (val : φ → σ → Except Err α) (nm : φ → ν → ν) (t : Tbl ν α) (L : List Nat) (hn : 0 < L.sum)
    (rows columns : List ν) (functions : List (ν × φ))
    (hnames : ∀ a ∈ (rows ++ columns) ++ functions.map (·.1), ∃ p, dGet a t = some p ∧ p.map List.length = L)
    (hsome : (rows ++ columns).length + functions.length ≠ 0)
    (hnd : ((rows ++ columns) ++ functions.map fun f => nm f.2 f.1).Nodup)
    (agg : ν × φ → List α → α)
    (hagg : ∀ f ∈ functions, ∀ k ∈ keyRows nul t (rows ++ columns) L.sum,
      aggOf init upd val f.2 ((rowsWith nul t (rows ++ columns) L.sum k).map fun i => cell nul t f.1 i) = .ok (agg f k)) :
    ∃ t' names, pivot ps mk N nul (groupby nul init upd val nm ps t (rows ++ columns) functions) rows columns functions true = .ok t' ∧
      tview t' = names.zip (pivotRowsView N.fnVal nul t L.sum rows columns functions agg) ∧
      names.length = rows.length + 1 + (firstOccs (keyRows nul t columns L.sum)).length ∧ names.Nodup ∧
      ((rows ++ [N.function] ++ (firstOccs (keyRows nul t columns L.sum)).map (N.keyName columns)).Nodup →
        names = rows ++ [N.function] ++ (firstOccs (keyRows nul t columns L.sum)).map (N.keyName columns)) := by
  obtain ⟨g, hg, hv⟩ := C33_partial nul init upd val nm ps hps t L (rows ++ columns) functions hnames hsome hnd agg hagg
  exact pivot_of_groups ps hps mk hmk N nul nm t L.sum hn rows columns functions hsome agg _ g hg hv

theorem pivotNames_fresh (mk : ν → Nat → ν) (hmk : ∀ d a b, mk d a = mk d b → a = b) (N : PivotNames ν α φ) (columns : List ν) (functions : List (ν × φ)) (key : List α)
    (res : Tbl ν α) (h : (res.map (·.1) ++ functions.map fun f => N.fnName f columns key).Nodup) :
    pivotNames mk N columns functions key res = functions.map fun f => N.fnName f columns key := by
  unfold pivotNames
  apply List.map_congr_left
  intro f hf
  apply (C47_unique_name mk _ _ (hmk _)).2.1
  intro hh
  exact (List.nodup_append.1 h).2.2 _ hh _ (List.mem_map.2 ⟨f, hf, rfl⟩) rfl

theorem pivotCols_loop (ps : Nat) (hps : 0 < ps) (mk : ν → Nat → ν) (hmk : ∀ d a b, mk d a = mk d b → a = b) (N : PivotNames ν α φ) (columns : List ν)
    (functions : List (ν × φ)) (fill : Nat → List α × Nat → Except Err (List α)) (val : List α → Nat → List α) (l : List (List α × Nat))
    (h : ∀ x ∈ l, ∀ ix < functions.length, fill ix x = .ok (val x.1 ix)) (t : Tbl ν α)
    (hnd : (t.map (·.1) ++ l.flatMap fun x => functions.map fun f => N.fnName f columns x.1).Nodup) :
    ∃ t', l.foldlM (fun res ck => ((List.range functions.length).mapM fun ix => fill ix ck).bind fun cols =>
        Except.ok (((pivotNames mk N columns functions ck.1 res).zip cols).foldl (fun t c => tblSet t c.1 (paginate ps c.2)) res)) t = .ok t' ∧
      tview t' = tview t ++ l.flatMap fun x => (functions.map fun f => N.fnName f columns x.1).zip ((List.range functions.length).map (val x.1)) := by
  induction l generalizing t with
  | nil => exact ⟨t, rfl, by simp⟩
  | cons x rest ih =>
    rw [List.flatMap_cons, ← List.append_assoc] at hnd
    rw [List.foldlM_cons, mapM_ok _ _ (val x.1) (fun ix hix => h x (by simp) ix (List.mem_range.1 hix))]
    dsimp only [Except.bind, bind]
    rw [pivotNames_fresh mk hmk N columns functions x.1 t (List.nodup_append.1 hnd).1]
    have hfst : ((functions.map fun f => N.fnName f columns x.1).zip ((List.range functions.length).map (val x.1))).map (·.1) = functions.map fun f => N.fnName f columns x.1 := by
      rw [List.map_fst_zip]
      simp
    have hview := setCols_view ps hps ((functions.map fun f => N.fnName f columns x.1).zip ((List.range functions.length).map (val x.1))) t
      (by rw [hfst]; exact (List.nodup_append.1 hnd).1)
    obtain ⟨t', h1, h2⟩ := ih (fun y hy => h y (by simp [hy]))
      (((functions.map fun f => N.fnName f columns x.1).zip ((List.range functions.length).map (val x.1))).foldl (fun t c => tblSet t c.1 (paginate ps c.2)) t) (by
        have := tview_names (((functions.map fun f => N.fnName f columns x.1).zip ((List.range functions.length).map (val x.1))).foldl (fun t c => tblSet t c.1 (paginate ps c.2)) t)
        rw [← this, hview, List.map_append, hfst, tview_names]
        exact hnd)
    refine ⟨t', h1, ?_⟩
    rw [h2, hview, List.flatMap_cons, List.append_assoc]

/-- C59 with values as columns: one row per row key, one column per column key and function.  Missing from the full statement: different page layouts, as above, and
colliding column names. -/
theorem C59_cols_partial (ps : Nat) (hps : 0 < ps) (mk : ν → Nat → ν) (hmk : ∀ d a b, mk d a = mk d b → a = b) (N : PivotNames ν α φ) (nul : α)
    (init : φ → σ) (upd : φ → σ → α → Except Err σ) (val : φ → σ → Except Err α) (nm : φ → ν → ν) (t : Tbl ν α) (L : List Nat) (hn : 0 < L.sum)
    (rows columns : List ν) (functions : List (ν × φ))
    (hnames : ∀ a ∈ (rows ++ columns) ++ functions.map (·.1), ∃ p, dGet a t = some p ∧ p.map List.length = L)
    (hsome : (rows ++ columns).length + functions.length ≠ 0)
    (hnd : ((rows ++ columns) ++ functions.map fun f => nm f.2 f.1).Nodup)
    (hnew : (rows ++ (firstOccs (keyRows nul t columns L.sum)).flatMap fun ck => functions.map fun f => N.fnName f columns ck).Nodup)
    (agg : ν × φ → List α → α)
    (hagg : ∀ f ∈ functions, ∀ k ∈ keyRows nul t (rows ++ columns) L.sum,
      aggOf init upd val f.2 ((rowsWith nul t (rows ++ columns) L.sum k).map fun i => cell nul t f.1 i) = .ok (agg f k)) :
    ∃ t', pivot ps mk N nul (groupby nul init upd val nm ps t (rows ++ columns) functions) rows columns functions false = .ok t' ∧
      tview t' = (rows ++ (firstOccs (keyRows nul t columns L.sum)).flatMap fun ck => functions.map fun f => N.fnName f columns ck).zip
        (pivotColsView nul t L.sum rows columns functions agg) := by
  obtain ⟨g, hg, hv⟩ := C33_partial nul init upd val nm ps hps t L (rows ++ columns) functions hnames hsome hnd agg hagg
  obtain ⟨s, hs, hrk, hck, hrec⟩ := pivot_matrix nul nm t L.sum hn rows columns functions agg hsome g hv
  rw [hg, hs]
  rw [if_neg (by simp)]
  unfold pivotAsCols
  dsimp only
  rw [hrk, hck]
  have hz : ∀ (β : Type) (f : List α → List β), ((firstOccs (keyRows nul t columns L.sum)).zipIdx.flatMap fun x => f x.1) = (firstOccs (keyRows nul t columns L.sum)).flatMap f := by
    intro β f
    rw [List.flatMap_def, List.flatMap_def]
    congr 1
    apply List.ext_getElem <;> simp
  have h1 : (rows.zip ((List.range rows.length).map fun j => (firstOccs (keyRows nul t rows L.sum)).map fun k => k.getD j nul)).map (·.1) = rows := by
    rw [List.map_fst_zip]
    simp
  have hv0 := setCols_view ps hps (rows.zip ((List.range rows.length).map fun j => (firstOccs (keyRows nul t rows L.sum)).map fun k => k.getD j nul)) ([] : Tbl ν α)
    (by rw [h1]; simpa using (List.nodup_append.1 hnew).1)
  obtain ⟨t', e1, e2⟩ := pivotCols_loop ps hps mk hmk N columns functions
    (fun ix x => fillCol nul (firstOccs (keyRows nul t rows L.sum)).length ix ((dGet x.2 s.records).getD []))
    (fun ck ix => (firstOccs (keyRows nul t rows L.sum)).map fun rk => (pivotCell nul t L.sum rows columns functions agg rk ck).getD ix nul)
    (firstOccs (keyRows nul t columns L.sum)).zipIdx (by
      intro x hx ix hix
      obtain ⟨h1, h2⟩ := zipIdx_pos _ (nodup_firstOccs _) x hx
      rw [hrec, h2]
      exact pivot_columns nul t L.sum rows columns functions agg x.1 ix hix)
    ((rows.zip ((List.range rows.length).map fun j => (firstOccs (keyRows nul t rows L.sum)).map fun k => k.getD j nul)).foldl (fun t c => tblSet t c.1 (paginate ps c.2)) [])
    (by
      rw [← tview_names, hv0, List.map_append, h1, hz _ fun ck => functions.map fun f => N.fnName f columns ck]
      simpa [tview] using hnew)
  refine ⟨t', e1, ?_⟩
  rw [e2, hv0, hz _ fun ck => (functions.map fun f => N.fnName f columns ck).zip ((List.range functions.length).map fun ix =>
    (firstOccs (keyRows nul t rows L.sum)).map fun rk => (pivotCell nul t L.sum rows columns functions agg rk ck).getD ix nul)]
  unfold pivotColsView
  rw [List.zip_append (by simp)]
  congr 1
  have H : ∀ (l : List (List α)) (f : List α → List ν) (q : List α → List (List α)), (∀ x, (f x).length = (q x).length) →
      (l.flatMap fun x => (f x).zip (q x)) = (l.flatMap f).zip (l.flatMap q) := by
    intro l f q h
    induction l with
    | nil => rfl
    | cons a u ih => rw [List.flatMap_cons, List.flatMap_cons, List.flatMap_cons, List.zip_append (h a), ih]
  exact H _ _ _ (by simp)

end

/-! ### the full statement and why it fails -/

/-- the names of the code for text names and values, pivots.py:131, 143, 169-170; `txt` is `str(value)` -/
def textNames (txt : GVal → String) : PivotNames String GVal Acc where
  fnVal f := .str (accName f.2 f.1)
  keyName columns key := "(" ++ ",".intercalate ((columns.zip key).map fun p => p.1 ++ "=" ++ txt p.2) ++ ")"
  fnName f columns key := accName f.2 (",".intercalate (f.1 :: (columns.zip key).map fun p => p.1 ++ "=" ++ txt p.2))
  function := "function"

/-- the claim for one table, one list of keys and functions: as rows -/
def PivotRowsOk (txt : GVal → String) (sqrt : Rat → Rat) (ps : Nat) (t : Tbl String GVal) (n : Nat) (rows columns : List String) (functions : List (String × Acc)) : Prop :=
  ∀ agg : String × Acc → List GVal → GVal,
    (∀ f ∈ functions, ∀ k ∈ keyRows GVal.none t (rows ++ columns) n,
      aggOf accInit accUpdate (accValue sqrt) f.2 ((rowsWith GVal.none t (rows ++ columns) n k).map fun i => cell GVal.none t f.1 i) = .ok (agg f k)) →
    ∃ (t' : Tbl String GVal) (names : List String), pivot ps suffixed (textNames txt) GVal.none (groupby GVal.none accInit accUpdate (accValue sqrt) accName ps t (rows ++ columns) functions) rows columns functions true = .ok t' ∧
      tview t' = names.zip (pivotRowsView (textNames txt).fnVal GVal.none t n rows columns functions agg) ∧
      names.length = rows.length + 1 + (firstOccs (keyRows GVal.none t columns n)).length ∧ names.Nodup

/-- the full claim, for rectangular tables and existing distinct key columns -/
def C59_statement (txt : GVal → String) (sqrt : Rat → Rat) : Prop :=
  ∀ (ps : Nat) (t : Tbl String GVal) (n : Nat) (rows columns : List String) (functions : List (String × Acc)), 0 < ps → 0 < n → Rect t n →
    (∀ a ∈ rows ++ columns ++ functions.map (·.1), a ∈ t.map (·.1)) → (rows ++ columns).Nodup → (rows ++ columns).length + functions.length ≠ 0 →
    PivotRowsOk txt sqrt ps t n rows columns functions

/-- the columns of the table a computation gives -/
def viewOf {ν α : Type} (r : Except Err (Tbl ν α)) : List (ν × List α) := match r with
  | .ok t => tview t
  | .error _ => []

/-- different page layouts: the row of key 2 is lost -/
theorem C59_fails (txt : GVal → String) (sqrt : Rat → Rat) : ¬ C59_statement txt sqrt := by
  intro h
  obtain ⟨t', names, h1, h2, h3, _⟩ := h 10 misaligned 3 ["k"] [] [("v", .count)] (by decide) (by decide) (by unfold Rect; decide +kernel) (by decide +kernel) (by decide) (by decide)
    (fun _ _ => .int 1) (by
      intro f hf k hk
      simp only [List.mem_singleton] at hf
      subst hf
      rw [aggOf_acc, C34_count, List.length_map]
      have : ∀ k ∈ keyRows GVal.none misaligned (["k"] ++ []) 3, (rowsWith GVal.none misaligned (["k"] ++ []) 3 k).length = 1 := by decide +kernel
      rw [this k hk]
      rfl)
  have h3' : (viewOf (pivot 10 suffixed (textNames txt) GVal.none (groupby GVal.none accInit accUpdate (accValue sqrt) accName 10 misaligned (["k"] ++ []) [("v", .count)]) ["k"] [] [("v", .count)] true)).map (fun c => c.2.length) =
      (names.zip (pivotRowsView (textNames txt).fnVal GVal.none misaligned 3 ["k"] [] [("v", .count)] (fun _ _ => .int 1))).map fun c => c.2.length := by
    rw [h1]
    exact congrArg _ h2
  have hn : names.length = 3 := by rw [h3]; decide +kernel
  obtain ⟨a, b, c, rfl⟩ := List.length_eq_three.1 hn
  · have h5 : (viewOf (pivot 10 suffixed (textNames fun _ => "") GVal.none (groupby GVal.none accInit accUpdate (accValue id) accName 10 misaligned (["k"] ++ []) [("v", .count)]) ["k"] [] [("v", .count)] true)).map (fun c => c.2.length) = [3, 3, 3] := h3'
    revert h5
    decide +kernel

/-- a table with one page per column -/
def pivotSource : Tbl String GVal := [("a", [[.int 1, .int 1, .int 2]]), ("b", [[.int 3, .int 4, .int 3]]), ("v", [[.int 10, .int 20, .int 30]])]

/-- the same function twice: the group-by keeps one column, the second row of every key holds nothing -/
theorem C59_same_function_fails (txt : GVal → String) (sqrt : Rat → Rat) : ¬ PivotRowsOk txt sqrt 10 pivotSource 3 ["a"] [] [("v", .count), ("v", .count)] := by
  intro h
  obtain ⟨t', names, h1, h2, h3, _⟩ := h (fun _ k => if k = [.int 1] then .int 2 else .int 1) (by
      intro f hf k hk
      have hf' : f = ("v", Acc.count) := by simpa using hf
      subst hf'
      rw [aggOf_acc, C34_count, List.length_map]
      have : ∀ k ∈ keyRows GVal.none pivotSource (["a"] ++ []) 3, (rowsWith GVal.none pivotSource (["a"] ++ []) 3 k).length = if k = [.int 1] then 2 else 1 := by decide +kernel
      rw [this k hk]
      by_cases hk' : k = [.int 1]
      · rw [if_pos hk', if_pos hk']; rfl
      · rw [if_neg hk', if_neg hk']; rfl)
  have h3' : (viewOf (pivot 10 suffixed (textNames txt) GVal.none (groupby GVal.none accInit accUpdate (accValue sqrt) accName 10 pivotSource (["a"] ++ []) [("v", .count), ("v", .count)]) ["a"] [] [("v", .count), ("v", .count)] true)).map (fun c => c.2) =
      (names.zip (pivotRowsView (textNames txt).fnVal GVal.none pivotSource 3 ["a"] [] [("v", .count), ("v", .count)] (fun _ k => if k = [.int 1] then .int 2 else .int 1))).map fun c => c.2 := by
    rw [h1]
    exact congrArg _ h2
  have hn : names.length = 3 := by rw [h3]; decide +kernel
  obtain ⟨a, b, c, rfl⟩ := List.length_eq_three.1 hn
  · have h5 : ((viewOf (pivot 10 suffixed (textNames fun _ => "") GVal.none (groupby GVal.none accInit accUpdate (accValue id) accName 10 pivotSource (["a"] ++ []) [("v", .count), ("v", .count)]) ["a"] [] [("v", .count), ("v", .count)] true)).map (fun c => c.2)).getLast? =
        some [.int 2, .int 2, .int 1, .int 1] := (congrArg List.getLast? h3').trans rfl
    revert h5
    decide +kernel

example : (∀ a ∈ ["a"] ++ ["b"] ++ [("v", Acc.sum)].map (·.1), ∃ p, dGet a pivotSource = some p ∧ p.map List.length = [3]) ∧
    (["a"] ++ ["b"] ++ [("v", Acc.sum)].map fun f => accName f.2 f.1).Nodup := by
  constructor
  · intro a ha
    simp at ha
    rcases ha with h | h | h <;> subst h
    · exact ⟨_, rfl, rfl⟩
    · exact ⟨_, rfl, rfl⟩
    · exact ⟨_, rfl, rfl⟩
  · decide +kernel

example : pivotCell GVal.none pivotSource 3 ["a"] ["b"] [("v", Acc.sum)] (fun _ _ => .int 20) [.int 1] [.int 4] = [.int 20] ∧
    pivotCell GVal.none pivotSource 3 ["a"] ["b"] [("v", Acc.sum)] (fun _ _ => .int 20) [.int 2] [.int 4] = [.none] := by decide +kernel

/-- the new names of a pivot of `pivotSource` are distinct -/
example : (["a"] ++ (firstOccs (keyRows GVal.none pivotSource ["b"] 3)).flatMap fun ck => [("v", Acc.sum)].map fun f =>
    (textNames fun v => if v = .int 3 then "3" else "4").fnName f ["b"] ck).Nodup := by decide +kernel

end Tablite
