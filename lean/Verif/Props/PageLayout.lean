import Verif.Props.Sheet
import Verif.Props.GroupSorted
/-!
# Lengths of pages

A column written in the chunks of `page_steps` is cut like one written at once.
-/

namespace Tablite

theorem layoutOf_add (ps : Nat) (hps : 0 < ps) (a b : Nat) (h : a % ps = 0) : layoutOf ps (a + b) = layoutOf ps a ++ layoutOf ps b := by
  have := congrArg (List.map List.length) (paginate_append ps hps (List.replicate a ()) (List.replicate b ()) (by simpa using h))
  rw [List.map_append, paginate_layout, paginate_layout, paginate_layout] at this
  simpa using this

/-- the chunks of `page_steps` are full pages -/
theorem layoutOf_steps (ps n : Nat) (hps : 0 < ps) : ((pageSteps ps n).map fun se => layoutOf ps (min se.2 n - se.1)).flatten = layoutOf ps n := by
  have gen : ∀ k e, e ≤ n → (n - e) / ps + 1 ≤ k → ((pageStepsLoop ps n k e).map fun se => layoutOf ps (min se.2 n - se.1)).flatten = layoutOf ps (n - e) := by
    intro k
    induction k with
    | zero => intro e _ h; exact absurd h (by generalize (n - e) / ps = z; omega)
    | succ k ih =>
      intro e he hk
      simp only [pageStepsLoop, List.map_cons, List.flatten_cons]
      by_cases h : min (e + ps) n = n
      · rw [if_pos h, h]
        simp
      · rw [if_neg h]
        have hlt : e + ps < n := by omega
        have hm : min (e + ps) n = e + ps := by omega
        rw [hm, ih (e + ps) (by omega) (by
          have := Nat.div_eq_sub_div hps (show ps ≤ n - e by omega)
          rw [show n - (e + ps) = n - e - ps by omega]
          omega), hm, show e + ps - e = ps by omega, ← layoutOf_add ps hps _ _ (Nat.mod_self ps)]
        congr 1
        omega
  have := gen (n / ps + 1) 0 (by omega) (by simp)
  simpa [pageSteps] using this

/-- the parts of a join are full pages -/
theorem layoutOf_joinParts (ps n : Nat) (hps : 0 < ps) : ((joinParts ps n).map fun se => layoutOf ps (se.2 - se.1)).flatten = layoutOf ps n := by
  have gen : ∀ K, K * ps ≤ n → (((List.range K).map fun k => (k * ps, min (k * ps + ps) n)).map fun se => layoutOf ps (se.2 - se.1)).flatten = layoutOf ps (K * ps) := by
    intro K
    induction K with
    | zero =>
      intro _
      have := layoutOf_add ps hps 0 0 (by simp)
      simp only [Nat.zero_mul, List.range_zero, List.map_nil, List.flatten_nil]
      simpa using this
    | succ K ih =>
      intro h
      rw [Nat.succ_mul] at h ⊢
      rw [List.range_succ, List.map_append, List.map_append, List.flatten_append, ih (by omega), layoutOf_add ps hps _ _ (Nat.mul_mod_left K ps)]
      simp only [List.map_cons, List.map_nil, List.flatten_cons, List.flatten_nil, List.append_nil]
      rw [Nat.min_eq_left h]
      congr 2
      omega
  have hd := Nat.div_mul_le_self n ps
  have hl : n < n / ps * ps + ps := by
    have := Nat.div_add_mod n ps
    have := Nat.mod_lt n hps
    have := Nat.mul_comm ps (n / ps)
    omega
  unfold joinParts
  rw [List.range_succ, List.map_append, List.map_append, List.flatten_append, gen _ hd]
  simp only [List.map_cons, List.map_nil, List.flatten_cons, List.flatten_nil, List.append_nil]
  rw [Nat.min_eq_right (by omega), ← layoutOf_add ps hps _ _ (Nat.mul_mod_left _ _)]
  congr 1
  omega

theorem layoutOf_pos (ps n : Nat) (hps : 0 < ps) : (∀ a ∈ layoutOf ps n, 0 < a) ∧ (layoutOf ps n).sum = n := by
  refine ⟨?_, ?_⟩
  · unfold layoutOf
    intro a ha
    obtain ⟨q, hq, rfl⟩ := List.mem_map.1 ha
    exact (paginate_sizes hps _ q hq).1
  · unfold layoutOf
    rw [← List.length_flatten, paginate_flatten hps]
    simp

section
variable {ν α : Type} [DecidableEq ν]

/-- chunks that are written one after the other -/
theorem foldlM_extend_parts {β : Type} (ps : Nat) (steps : List β) (f : β → Except Err (List α)) (init q : Pages α)
    (hq : steps.foldlM (fun new s => do let v ← f s; Except.ok (extend ps new v)) init = .ok q) :
    ∃ rs : List (List α), List.Forall₂ (fun s r => f s = .ok r) steps rs ∧ q = init ++ (rs.map (paginate ps)).flatten := by
  induction steps generalizing init with
  | nil =>
    cases hq
    exact ⟨[], .nil, by simp⟩
  | cons a t ih =>
    rw [List.foldlM_cons] at hq
    cases hf : f a with
    | error e => rw [hf] at hq; cases hq
    | ok v =>
      rw [hf] at hq
      obtain ⟨rs, h1, h2⟩ := ih _ hq
      exact ⟨v :: rs, .cons hf h1, by rw [h2]; simp [extend]⟩

theorem parts_full {β : Type} (ps : Nat) (steps : List β) (g : β → Nat) (rs : List (List α)) (h : List.Forall₂ (fun s r => g s ≤ List.length r) steps rs)
    (hs : (rs.map List.length).sum ≤ (steps.map g).sum) : rs.map (fun r => layoutOf ps r.length) = steps.map fun s => layoutOf ps (g s) := by
  have gen : ∀ {steps : List β} {rs : List (List α)}, List.Forall₂ (fun s r => g s ≤ List.length r) steps rs → (steps.map g).sum ≤ (rs.map List.length).sum := by
    intro steps rs h
    induction h with
    | nil => simp
    | cons h _ ih => simp only [List.map_cons, List.sum_cons]; omega
  induction h with
  | nil => rfl
  | cons h h' ih =>
    have := gen h'
    simp only [List.map_cons, List.sum_cons] at hs ⊢
    rw [ih (by omega)]
    congr 2
    omega

theorem steps_sum (ps n : Nat) (hps : 0 < ps) : ((pageSteps ps n).map fun se => min se.2 n - se.1).sum = n := by
  have h := congrArg List.sum (layoutOf_steps ps n hps)
  rw [(layoutOf_pos ps n hps).2, List.sum_flatten, List.map_map] at h
  conv_rhs => rw [← h]
  congr 1
  apply List.map_congr_left
  intro se _
  exact (layoutOf_pos ps _ hps).2.symm

theorem bcast_le (a b n : Nat) (ha : 0 < a) (hb : 0 < b) (h : bcast a b = .ok n) : a ≤ n ∧ b ≤ n := by
  unfold bcast at h
  split at h
  · injection h with h; omega
  · split at h
    · injection h with h; omega
    · split at h
      · injection h with h; omega
      · cases h

theorem stretch_length {β : Type} (l : List β) (n : Nat) (h : 0 < l.length) : (stretch l n).length = n := by
  unfold stretch
  split
  · assumption
  · cases l with
    | nil => simp at h
    | cons a t => simp

theorem npWhere_le (mask : List Bool) (x y r : List α) (hm : 0 < mask.length) (hx : 0 < x.length) (hy : 0 < y.length) (h : npWhere mask x y = .ok r) :
    mask.length ≤ r.length ∧ x.length ≤ r.length ∧ y.length ≤ r.length := by
  unfold npWhere at h
  cases h1 : bcast mask.length x.length with
  | error e => rw [h1] at h; cases h
  | ok n =>
    cases h2 : bcast n y.length with
    | error e => rw [h1] at h; simp only [bind, Except.bind] at h; rw [h2] at h; cases h
    | ok m =>
      rw [h1] at h
      simp only [bind, Except.bind] at h
      rw [h2] at h
      injection h with h
      have a1 := bcast_le _ _ _ hm hx h1
      have a2 := bcast_le _ _ _ (by omega) hy h2
      have : r.length = m := by
        rw [← h]
        simp [stretch_length _ m hm, stretch_length _ m hx, stretch_length _ m hy]
      omega

/-- a chunk of `reindex` is written with at least as many values as it has row numbers -/
theorem reindexChunk_le (nul : α) (pages : Pages α) (hsol : ∀ p ∈ pages, p ≠ []) (total : Nat) (chunk : List Int) (ht : chunk.length ≤ total) (r : List α)
    (hr : reindexChunk nul pages total chunk = .ok r) : chunk.length ≤ r.length := by
  unfold reindexChunk at hr
  rw [getByIndices_ok pages chunk (fun _ => hsol)] at hr
  simp only [bind, Except.bind] at hr
  split at hr
  · rename_i h
    have hpos : 0 < chunk.length := by
      cases chunk with
      | nil => simp at h
      | cons a t => simp
    have := npWhere_le _ _ _ r (by simpa using hpos) (by simp; omega) (by simpa using hpos) hr
    simpa using this.1
  · injection hr with hr
    rw [← hr]
    simp

/-- a reindexed column with as many rows as row numbers is cut into full pages -/
theorem reindexCol_full (ps : Nat) (hps : 0 < ps) (nul : α) (pages q : Pages α) (hsol : ∀ p ∈ pages, p ≠ []) (index : List Int) (hq : reindexCol ps nul pages index = .ok q) (hlen : colLen q = index.length) :
    q.map List.length = layoutOf ps index.length := by
  unfold reindexCol at hq
  obtain ⟨rs, h1, h2⟩ := foldlM_extend_parts ps (pageSteps ps index.length) (fun se => reindexChunk nul pages index.length ((index.take se.2).drop se.1)) [] q hq
  have hle : List.Forall₂ (fun se r => min se.2 index.length - se.1 ≤ List.length r) (pageSteps ps index.length) rs := by
    refine h1.imp ?_
    intro se r hr
    have := reindexChunk_le nul pages hsol index.length _ (by simp) r hr
    simpa using this
  have hsum : (rs.map List.length).sum = index.length := by
    rw [colLen_eq, h2] at hlen
    rw [← hlen]
    simp only [List.nil_append, List.length_flatten]
    rw [List.map_flatten, List.map_map, List.sum_flatten, List.map_map]
    congr 1
    apply List.map_congr_left
    intro r _
    simp only [Function.comp]
    rw [← List.length_flatten, paginate_flatten hps]
  have := parts_full ps (pageSteps ps index.length) (fun se => min se.2 index.length - se.1) rs hle (by rw [hsum, steps_sum ps _ hps])
  rw [h2, List.nil_append, List.map_flatten, List.map_map, ← layoutOf_steps ps index.length hps, ← this]
  congr 1
  apply List.map_congr_left
  intro r _
  exact paginate_layout ps r

end

end Tablite
