import Verif.Spec.Stats
import Verif.Model.Stats
import Verif.Props.GroupByAcc
import Mathlib.Data.List.GetD
/-!
# C36 summary statistics, C66 quartiles and the dominant type
-/

namespace Tablite

/-! ## sorting the histogram -/

theorem vcLe_iff (a b : Rat × Nat) : vcLe a b = true ↔ a.1 < b.1 ∨ (a.1 = b.1 ∧ a.2 ≤ b.2) := by
  unfold vcLe
  simp

instance : Std.Total (fun a b : Rat × Nat => vcLe a b = true) := ⟨by
  intro a b
  simp only [vcLe_iff]
  rcases lt_trichotomy a.1 b.1 with h | h | h
  · exact Or.inl (Or.inl h)
  · rcases Nat.le_total a.2 b.2 with h' | h'
    · exact Or.inl (Or.inr ⟨h, h'⟩)
    · exact Or.inr (Or.inr ⟨h.symm, h'⟩)
  · exact Or.inr (Or.inl h)⟩

instance : IsTrans (Rat × Nat) (fun a b => vcLe a b = true) := ⟨by
  intro a b c h1 h2
  simp only [vcLe_iff] at *
  rcases h1 with h1 | ⟨e1, h1⟩
  · rcases h2 with h2 | ⟨e2, h2⟩
    · exact Or.inl (lt_trans h1 h2)
    · exact Or.inl (e2 ▸ h1)
  · rcases h2 with h2 | ⟨e2, h2⟩
    · exact Or.inl (e1 ▸ h2)
    · exact Or.inr ⟨e1.trans e2, le_trans h1 h2⟩⟩

theorem vcLe_antisymm (a b : Rat × Nat) (h1 : vcLe a b = true) (h2 : vcLe b a = true) : a = b := by
  simp only [vcLe_iff] at *
  rcases h1 with h1 | ⟨e1, h1⟩
  · rcases h2 with h2 | ⟨e2, _⟩
    · exact absurd (lt_trans h1 h2) (lt_irrefl _)
    · rw [e2] at h1; exact absurd h1 (lt_irrefl _)
  · rcases h2 with h2 | ⟨_, h2⟩
    · rw [e1] at h2; exact absurd h2 (lt_irrefl _)
    · exact Prod.ext e1 (le_antisymm h1 h2)

/-- the summary does not depend on the order of the histogram -/
theorem C36_order (vc vc' : List (Rat × Nat)) (h : vc.Perm vc') : numericSummary vc = numericSummary vc' := by
  have hs : vc.insertionSort (fun a b => vcLe a b = true) = vc'.insertionSort (fun a b => vcLe a b = true) := by
    apply List.Perm.eq_of_pairwise (fun a b _ _ h h' => vcLe_antisymm a b h h') (List.pairwise_insertionSort _ _) (List.pairwise_insertionSort _ _)
    exact (List.perm_insertionSort _ _).trans (h.trans (List.perm_insertionSort _ _).symm)
  unfold numericSummary
  rw [hs, (h.map (·.2)).sum_eq]

/-! ## expanded histograms -/

theorem expand_nil : expand [] = [] := rfl
theorem expand_append (a b : List (Rat × Nat)) : expand (a ++ b) = expand a ++ expand b := by simp [expand]
theorem expand_single (e : Rat × Nat) : expand [e] = List.replicate e.2 e.1 := by simp [expand]
theorem expand_length (a : List (Rat × Nat)) : (expand a).length = (a.map (·.2)).sum := by simp [expand, List.length_flatMap]
theorem expand_perm {a b : List (Rat × Nat)} (h : a.Perm b) : (expand a).Perm (expand b) := List.Perm.flatMap_right _ h

theorem expand_sorted (h : List (Rat × Nat)) (hp : h.Pairwise (fun a b => a.1 ≤ b.1)) : (expand h).Pairwise (· ≤ ·) := by
  induction h with
  | nil => simp [expand]
  | cons e t ih =>
    rw [List.pairwise_cons] at hp
    unfold expand
    rw [List.flatMap_cons, List.pairwise_append]
    refine ⟨List.pairwise_replicate.2 (Or.inr le_rfl), ih hp.2, ?_⟩
    intro a ha b hb
    rw [List.mem_replicate] at ha
    rw [List.mem_flatMap] at hb
    obtain ⟨x, hx, hb⟩ := hb
    rw [List.mem_replicate] at hb
    rw [ha.2, hb.2]
    exact hp.1 x hx

theorem mem_expand (h : List (Rat × Nat)) (hpos : ∀ e ∈ h, 0 < e.2) (x : Rat) : x ∈ expand h ↔ ∃ e ∈ h, e.1 = x := by
  unfold expand
  rw [List.mem_flatMap]
  constructor
  · rintro ⟨e, he, hx⟩
    rw [List.mem_replicate] at hx
    exact ⟨e, he, hx.2.symm⟩
  · rintro ⟨e, he, rfl⟩
    exact ⟨e, he, List.mem_replicate.2 ⟨by have := hpos e he; omega, rfl⟩⟩

/-! ## the loop -/

/-- the quantile the loop computes, on the written out values -/
def quantAt (N k : Nat) (W : List Rat) : Rat :=
  if (k * N) % 4 = 0 then
    let delta : Rat := ((k * (N - 1)) % 4 : Nat)
    (W.getD (k * N / 4 - 1) 0 * (4 - delta) + W.getD (k * N / 4) 0 * delta) / 4
  else W.getD (k * N / 4) 0

theorem pos_cmp (N k n : Nat) : (((n : Rat) < (N : Rat) * k / 4) ↔ 4 * n < k * N) ∧ (((N : Rat) * k / 4 < (n : Rat)) ↔ k * N < 4 * n) ∧
    (((n : Rat) = (N : Rat) * k / 4) ↔ 4 * n = k * N) := by
  refine ⟨?_, ?_, ?_⟩
  · rw [lt_div_iff₀ (by norm_num)]
    rw [mul_comm (n : Rat) 4, mul_comm (N : Rat)]
    exact_mod_cast Iff.rfl
  · rw [div_lt_iff₀ (by norm_num)]
    rw [mul_comm (n : Rat) 4, mul_comm (N : Rat)]
    exact_mod_cast Iff.rfl
  · rw [eq_div_iff (by norm_num)]
    rw [mul_comm (n : Rat) 4, mul_comm (N : Rat)]
    exact_mod_cast Iff.rfl

/-- the invariant of one quartile block -/
def QInv (N k : Nat) (init : Option Rat) (W : List Rat) (cur : Option Rat) : Prop :=
  if k * N < 4 * W.length then cur = some (quantAt N k W) else cur = init

theorem quantAt_append (N k : Nat) (W V : List Rat) (h : k * N < 4 * W.length) : quantAt N k (W ++ V) = quantAt N k W := by
  unfold quantAt
  rw [List.getD_append _ _ _ _ (by omega), List.getD_append _ _ _ _ (by omega)]

theorem quart_step (N k : Nat) (hk : 0 < k * N) (init : Option Rat) (W : List Rat) (cur prev : Option Rat) (hq : QInv N k init W cur)
    (hprev : W ≠ [] → prev = W.getLast?) (e : Rat × Nat) (he : 0 < e.2) :
    ∃ q, quartBlock N k W.length (W.length + e.2) prev e.1 cur = .ok q ∧ QInv N k init (W ++ List.replicate e.2 e.1) q := by
  obtain ⟨vx, c⟩ := e
  dsimp only at he ⊢
  unfold quartBlock
  dsimp only
  have p1 := (pos_cmp N k W.length).1
  have p2 := (pos_cmp N k (W.length + c)).2.1
  have p3 := (pos_cmp N k W.length).2.2
  by_cases h1 : 4 * W.length < k * N ∧ k * N < 4 * (W.length + c)
  · rw [if_pos ⟨p1.2 h1.1, p2.2 h1.2⟩]
    refine ⟨_, rfl, ?_⟩
    unfold QInv
    rw [if_pos (by simp only [List.length_append, List.length_replicate]; exact h1.2)]
    have hg : ∀ j, W.length ≤ j → j < W.length + c → (W ++ List.replicate c vx).getD j 0 = vx := by
      intro j h h'
      rw [List.getD_append_right _ _ _ _ h, List.getD_eq_getElem?_getD, List.getElem?_replicate, if_pos (by omega)]
      rfl
    unfold quantAt
    by_cases hm : (k * N) % 4 = 0
    · rw [if_pos hm, hg _ (by omega) (by omega), hg _ (by omega) (by omega)]
      congr 1
      ring
    · rw [if_neg hm, hg _ (by omega) (by omega)]
  · rw [if_neg (fun h => h1 ⟨p1.1 h.1, p2.1 h.2⟩)]
    by_cases h2 : 4 * W.length = k * N
    · rw [if_pos (p3.2 h2)]
      have hne : W ≠ [] := by
        intro e
        rw [e, List.length_nil] at h2
        omega
      have hl := List.length_pos_iff.2 hne
      rw [hprev hne, List.getLast?_eq_getLast_of_ne_nil hne]
      refine ⟨_, rfl, ?_⟩
      unfold QInv
      rw [if_pos (by simp only [List.length_append, List.length_replicate]; omega)]
      unfold quantAt
      rw [if_pos (by omega)]
      dsimp only
      rw [List.getD_append _ _ _ _ (by omega), List.getD_append_right _ _ _ _ (by omega)]
      rw [show k * N / 4 = W.length by omega, Nat.sub_self, List.getLast_eq_getElem hne]
      congr 4
      · congr 1
        rw [List.getD_eq_getElem?_getD, List.getElem?_eq_getElem (by omega)]
        rfl
      · congr 1
        rw [List.getD_eq_getElem?_getD, List.getElem?_replicate, if_pos he]
        rfl
    · rw [if_neg (fun h => h2 (p3.1 h))]
      refine ⟨_, rfl, ?_⟩
      unfold QInv at *
      simp only [List.length_append, List.length_replicate]
      by_cases h3 : k * N < 4 * W.length
      · rw [if_pos h3] at hq
        rw [if_pos (by omega), quantAt_append _ _ _ _ h3]
        exact hq
      · rw [if_neg h3] at hq
        rw [if_neg (by omega)]
        exact hq

/-- what the loop variables hold after a part of the histogram -/
structure StatInv (N : Nat) (P : List (Rat × Nat)) (s : StatSt) : Prop where
  cnt : s.cntN = (expand P).length
  total : s.total = (expand P).sum
  mn : s.mn = meanOf (expand P)
  cstd : s.cstd = ((expand P).map fun x => x * x).sum - (expand P).sum * (expand P).sum / (expand P).length
  low : QInv N 1 (some 0) (expand P) s.low
  median : QInv N 2 none (expand P) s.median
  high : QInv N 3 (some 0) (expand P) s.high
  prev : expand P ≠ [] → s.prev = (expand P).getLast?
  modeNone : P = [] → s.mode = none ∧ s.maxCnt = -1
  modeSome : P ≠ [] → ∃ e ∈ P, s.mode = some e.1 ∧ s.maxCnt = e.2 ∧ ∀ x ∈ P, x.2 ≤ e.2

theorem stat_run (N : Nat) (hN : 0 < N) (P : List (Rat × Nat)) (hpos : ∀ e ∈ P, 0 < e.2) :
    ∃ s, P.foldlM (statStep N) {} = .ok s ∧ StatInv N P s := by
  induction P using List.reverseRecOn with
  | nil =>
    refine ⟨_, rfl, ?_⟩
    constructor <;> simp [expand_nil, QInv, meanOf]
  | append_singleton P e ih =>
    obtain ⟨s, h1, inv⟩ := ih (fun x hx => hpos x (by simp [hx]))
    have he : 0 < e.2 := hpos e (by simp)
    obtain ⟨lo, l1, l2⟩ := quart_step N 1 (by omega) _ _ _ s.prev inv.low inv.prev e he
    obtain ⟨me, m1, m2⟩ := quart_step N 2 (by omega) _ _ _ s.prev inv.median inv.prev e he
    obtain ⟨hi, g1, g2⟩ := quart_step N 3 (by omega) _ _ _ s.prev inv.high inv.prev e he
    rw [List.foldlM_append, h1]
    have hstep : statStep N s e = .ok {
        total := s.total + e.1 * e.2,
        mode := if s.maxCnt < e.2 then some e.1 else s.mode,
        maxCnt := if s.maxCnt < e.2 then e.2 else s.maxCnt,
        cntN := s.cntN + e.2,
        mn := s.mn + e.2 * (e.1 - s.mn) / (s.cntN + e.2 : Nat),
        cstd := s.cstd + e.2 * (e.1 - s.mn) * (e.1 - (s.mn + e.2 * (e.1 - s.mn) / (s.cntN + e.2 : Nat))),
        low := lo, median := me, high := hi, prev := some e.1 } := by
      unfold statStep
      dsimp only
      have hmn : ∀ a b, mnStep a b ((expand P).length + e.2) = .ok (a + b / ((expand P).length + e.2 : Nat)) := fun a b => by
        rw [mnStep, if_neg (by omega)]
      rw [inv.cnt, l1, m1, g1, hmn]
      rfl
    have hone : ((Except.ok s : Except Err StatSt) >>= fun init => List.foldlM (statStep N) init [e]) = statStep N s e := by
      rw [hstep]
      show List.foldlM (statStep N) s [e] = _
      rw [List.foldlM_cons, hstep]
      rfl
    rw [hone, hstep]
    refine ⟨_, rfl, ?_⟩
    have hx : expand (P ++ [e]) = expand P ++ List.replicate e.2 e.1 := by rw [expand_append, expand_single]
    have hsum : (List.replicate e.2 e.1).sum = e.2 * e.1 := by simp
    have hcpos : (e.2 : Rat) ≠ 0 := by exact_mod_cast Nat.pos_iff_ne_zero.1 he
    have hge : (0 : Rat) ≤ (expand P).length := by positivity
    have hcp : (0 : Rat) < e.2 := by exact_mod_cast he
    have hsumne : ((expand P).length : Rat) + e.2 ≠ 0 := by positivity
    constructor
    · rw [hx]; simp [inv.cnt]
    · rw [hx, List.sum_append, hsum, inv.total]; ring
    · dsimp only
      rw [hx, inv.mn, inv.cnt]
      unfold meanOf
      rw [List.sum_append, hsum, List.length_append, List.length_replicate]
      by_cases hz : expand P = []
      · rw [hz]; simp
      · have : ((expand P).length : Rat) ≠ 0 := by
          have := List.length_pos_iff.2 hz
          exact_mod_cast Nat.pos_iff_ne_zero.1 this
        push_cast
        field_simp
        ring
    · dsimp only
      rw [hx, inv.mn, inv.cnt, inv.cstd, List.map_append, List.sum_append, List.sum_append, hsum, List.length_append, List.length_replicate, List.map_replicate,
        List.sum_replicate]
      unfold meanOf
      by_cases hz : expand P = []
      · rw [hz]; simp; field_simp
      · have : ((expand P).length : Rat) ≠ 0 := by
          have := List.length_pos_iff.2 hz
          exact_mod_cast Nat.pos_iff_ne_zero.1 this
        push_cast
        rw [nsmul_eq_mul]
        field_simp
        ring
    · rw [hx]; exact l2
    · rw [hx]; exact m2
    · rw [hx]; exact g2
    · intro _
      rw [hx]
      have hr : (List.replicate e.2 e.1).getLast? = some e.1 := by
        rw [List.getLast?_replicate]
        exact if_neg (by omega)
      rw [List.getLast?_append, hr]
      rfl
    · intro h; simp at h
    · intro _
      dsimp only
      by_cases hP : P = []
      · subst hP
        obtain ⟨q1, q2⟩ := inv.modeNone rfl
        refine ⟨e, by simp, ?_, ?_, by simp⟩
        · rw [q2, if_pos (by omega)]
        · rw [q2, if_pos (by omega)]
      · obtain ⟨m, hm, q1, q2, q3⟩ := inv.modeSome hP
        by_cases hlt : s.maxCnt < e.2
        · rw [if_pos hlt, if_pos hlt]
          refine ⟨e, by simp, rfl, rfl, ?_⟩
          intro x hx
          simp only [List.mem_append, List.mem_singleton] at hx
          rcases hx with hx | hx
          · have := q3 x hx; omega
          · rw [hx]
        · rw [if_neg hlt, if_neg hlt]
          refine ⟨m, by simp [hm], q1, q2, ?_⟩
          intro x hx
          simp only [List.mem_append, List.mem_singleton] at hx
          rcases hx with hx | hx
          · exact q3 x hx
          · rw [hx]; omega

theorem sorted_getD (W : List Rat) (hs : W.Pairwise (· ≤ ·)) (i j : Nat) (h : i ≤ j) (hj : j < W.length) : W.getD i 0 ≤ W.getD j 0 := by
  rw [List.getD_eq_getElem _ _ (by omega), List.getD_eq_getElem _ _ hj]
  rcases Nat.lt_or_eq_of_le h with h' | h'
  · exact List.pairwise_iff_getElem.1 hs i j (by omega) hj h'
  · subst h'; exact le_rfl

theorem quantAt_quartile (N k : Nat) (hN : 0 < N) (hk : k = 1 ∨ k = 2 ∨ k = 3) (W : List Rat) (hl : W.length = N) (hs : W.Pairwise (· ≤ ·)) :
    IsQuartile k W (quantAt N k W) := by
  have hbelow : ∀ (i : Nat) (q : Rat), i < N → q ≤ W.getD i 0 → W.countP (fun x => decide (x < q)) ≤ i := by
    intro i q hi hq
    rw [← List.take_append_drop i W, List.countP_append]
    have h0 : (W.drop i).countP (fun x => decide (x < q)) = 0 := by
      rw [List.countP_eq_zero]
      intro x hx
      obtain ⟨j, hj, rfl⟩ := List.mem_iff_getElem.1 hx
      rw [List.getElem_drop]
      simp only [List.length_drop] at hj
      have := sorted_getD W hs i (i + j) (by omega) (by omega)
      rw [List.getD_eq_getElem _ _ (show i + j < W.length by omega)] at this
      simp only [decide_eq_true_eq, not_lt]
      exact le_trans hq this
    have h1 : (W.take i).countP (fun x => decide (x < q)) ≤ i := le_trans List.countP_le_length (by simp)
    omega
  have habove : ∀ (i : Nat) (q : Rat), i < N → W.getD i 0 ≤ q → W.countP (fun x => decide (q < x)) ≤ N - (i + 1) := by
    intro i q hi hq
    rw [← List.take_append_drop (i + 1) W, List.countP_append]
    have h0 : (W.take (i + 1)).countP (fun x => decide (q < x)) = 0 := by
      rw [List.countP_eq_zero]
      intro x hx
      obtain ⟨j, hj, rfl⟩ := List.mem_iff_getElem.1 hx
      rw [List.getElem_take]
      simp only [List.length_take] at hj
      have := sorted_getD W hs j i (by omega) (by omega)
      rw [List.getD_eq_getElem _ _ (show j < W.length by omega)] at this
      simp only [decide_eq_true_eq, not_lt]
      exact le_trans this hq
    have h1 : (W.drop (i + 1)).countP (fun x => decide (q < x)) ≤ N - (i + 1) := le_trans List.countP_le_length (by simp; omega)
    omega
  have hkN : k * N < 4 * N ∧ 0 < k * N := by rcases hk with h | h | h <;> subst h <;> omega
  have hik : k * N / 4 < N := by omega
  have h4k : (4 - k) * N = 4 * N - k * N := Nat.sub_mul 4 k N
  unfold quantAt IsQuartile
  rw [hl]
  by_cases hm : (k * N) % 4 = 0
  · rw [if_pos hm]
    dsimp only
    have hd : (0 : Rat) ≤ ((k * (N - 1)) % 4 : Nat) ∧ (((k * (N - 1)) % 4 : Nat) : Rat) ≤ 4 := by
      constructor
      · positivity
      · have : (k * (N - 1)) % 4 ≤ 4 := by omega
        exact_mod_cast this
    generalize (((k * (N - 1)) % 4 : Nat) : Rat) = d at hd
    have hle := sorted_getD W hs (k * N / 4 - 1) (k * N / 4) (by omega) (by omega)
    have b1 := hbelow (k * N / 4) ((W.getD (k * N / 4 - 1) 0 * (4 - d) + W.getD (k * N / 4) 0 * d) / 4) hik (by
      rw [div_le_iff₀ (by norm_num)]
      nlinarith [hd.1, hd.2])
    have b2 := habove (k * N / 4 - 1) ((W.getD (k * N / 4 - 1) 0 * (4 - d) + W.getD (k * N / 4) 0 * d) / 4) (by omega) (by
      rw [le_div_iff₀ (by norm_num)]
      nlinarith [hd.1, hd.2])
    constructor
    · omega
    · rw [h4k]; omega
  · rw [if_neg hm]
    have b1 := hbelow (k * N / 4) _ hik le_rfl
    have b2 := habove (k * N / 4) _ hik le_rfl
    constructor
    · omega
    · rw [h4k]; omega

/-- every value of the dictionary equals its definition on the values the histogram stands for -/
theorem C36_summary (vc : List (Rat × Nat)) (hne : vc ≠ []) (hpos : ∀ e ∈ vc, 0 < e.2) :
    ∃ s, numericSummary vc = .ok s ∧
      s.sum = (expand vc).sum ∧ s.mean = meanOf (expand vc) ∧
      (s.min ∈ expand vc ∧ ∀ x ∈ expand vc, s.min ≤ x) ∧ (s.max ∈ expand vc ∧ ∀ x ∈ expand vc, x ≤ s.max) ∧
      (∃ e ∈ vc, s.mode = some e.1 ∧ ∀ x ∈ vc, x.2 ≤ e.2) ∧
      (∃ m, s.median = some m ∧ IsMedian (expand vc) m) ∧
      (2 ≤ (expand vc).length → s.var = varianceOf (expand vc)) ∧ ((expand vc).length = 1 → s.var = 0) ∧
      (∃ q, s.iqrLow = some q ∧ IsQuartile 1 (expand vc) q) ∧ (∃ q, s.iqrHigh = some q ∧ IsQuartile 3 (expand vc) q) := by
  have hperm := List.perm_insertionSort (fun a b => vcLe a b = true) vc
  have hsorted := List.pairwise_insertionSort (fun a b => vcLe a b = true) vc
  generalize hVC : vc.insertionSort (fun a b => vcLe a b = true) = VC at hperm hsorted
  have hpos' : ∀ e ∈ VC, 0 < e.2 := fun e he => hpos e (hperm.mem_iff.1 he)
  have hVne : VC ≠ [] := by intro e; rw [e] at hperm; exact hne hperm.nil_eq.symm
  have hE := expand_perm hperm
  have hlen : (vc.map (·.2)).sum = (expand VC).length := by rw [expand_length]; exact ((hperm.map (·.2)).sum_eq).symm
  have hle : VC.Pairwise (fun a b => a.1 ≤ b.1) := hsorted.imp (fun {a b} h => by
    rw [vcLe_iff] at h
    rcases h with h | ⟨h, _⟩
    · exact le_of_lt h
    · exact le_of_eq h)
  have hW := expand_sorted VC hle
  have hN : 0 < (expand VC).length := by
    obtain ⟨e, he⟩ := List.exists_mem_of_ne_nil VC hVne
    exact List.length_pos_of_mem ((mem_expand VC hpos' e.1).2 ⟨e, he, rfl⟩)
  have hWne : expand VC ≠ [] := List.length_pos_iff.1 hN
  obtain ⟨st, h1, inv⟩ := stat_run (expand VC).length hN VC hpos'
  have hcount : ∀ p : Rat → Bool, (expand VC).countP p = (expand vc).countP p := fun p => hE.countP_eq p
  have hquart : ∀ k q, IsQuartile k (expand VC) q → IsQuartile k (expand vc) q := by
    intro k q h
    unfold IsQuartile at *
    rw [← hcount, ← hcount, ← hE.length_eq]
    exact h
  have hmean : meanOf (expand VC) = meanOf (expand vc) := by unfold meanOf; rw [hE.sum_eq, hE.length_eq]
  have hvar : varianceOf (expand VC) = varianceOf (expand vc) := by
    unfold varianceOf
    rw [hmean, (hE.map _).sum_eq, hE.length_eq]
  have hlast := List.getLast?_eq_getLast_of_ne_nil hVne
  have hhead : VC.head? = some (VC.head hVne) := List.head?_eq_some_head hVne
  refine ⟨{ min := (VC.head hVne).1, max := (VC.getLast hVne).1, mean := st.total / (expand VC).length, median := st.median,
            var := if 1 < st.cntN then st.cstd / ((st.cntN : Rat) - 1) else 0,
            mode := st.mode, iqrLow := st.low, iqrHigh := st.high, sum := st.total }, ?_, ?_⟩
  · unfold numericSummary
    dsimp only
    rw [hVC, hhead, hlast, hlen]
    simp only [bind, Except.bind, h1]
    rw [if_neg (by omega)]
  · dsimp only
    refine ⟨?_, ?_, ⟨?_, ?_⟩, ⟨?_, ?_⟩, ?_, ?_, ?_, ?_, ?_, ?_⟩
    · rw [inv.total, hE.sum_eq]
    · rw [inv.total, ← hmean]; rfl
    · rw [← hE.mem_iff, mem_expand VC hpos']; exact ⟨_, List.head_mem hVne, rfl⟩
    · intro x hx
      rw [← hE.mem_iff, mem_expand VC hpos'] at hx
      obtain ⟨e, he, rfl⟩ := hx
      cases VC with
      | nil => exact absurd rfl hVne
      | cons a t =>
        simp only [List.mem_cons] at he
        rcases he with he | he
        · rw [he]; exact le_rfl
        · exact (List.pairwise_cons.1 hle).1 e he
    · rw [← hE.mem_iff, mem_expand VC hpos']; exact ⟨_, List.getLast_mem hVne, rfl⟩
    · intro x hx
      rw [← hE.mem_iff, mem_expand VC hpos'] at hx
      obtain ⟨e, he, rfl⟩ := hx
      obtain ⟨i, hi, rfl⟩ := List.mem_iff_getElem.1 he
      rw [List.getLast_eq_getElem hVne]
      rcases Nat.lt_or_ge i (VC.length - 1) with h | h
      · exact List.pairwise_iff_getElem.1 hle i (VC.length - 1) hi (by omega) h
      · have : i = VC.length - 1 := by omega
        subst this
        exact le_rfl
    · obtain ⟨e, he, q1, _, q3⟩ := inv.modeSome hVne
      exact ⟨e, hperm.mem_iff.1 he, q1, fun x hx => q3 x (hperm.mem_iff.2 hx)⟩
    · have hq := inv.median
      unfold QInv at hq
      rw [if_pos (by omega)] at hq
      refine ⟨_, hq, expand VC, hE, hW, ?_⟩
      rw [← hE.length_eq]
      have hg : ∀ j, j < (expand VC).length → (expand VC)[j]? = some ((expand VC).getD j 0) := by
        intro j hj
        rw [List.getD_eq_getElem _ _ hj, List.getElem?_eq_getElem hj]
      unfold quantAt
      by_cases ho : (expand VC).length % 2 = 1
      · rw [if_pos ho, if_neg (by omega), hg _ (by omega)]
        congr 2
        omega
      · rw [if_neg ho, if_pos (by omega)]
        refine ⟨_, _, hg _ (by omega), hg _ (by omega), ?_⟩
        dsimp only
        rw [show 2 * ((expand VC).length - 1) % 4 = 2 by omega, show 2 * (expand VC).length / 4 = (expand VC).length / 2 by omega]
        push_cast
        ring
    · intro h2
      rw [← hE.length_eq] at h2
      rw [← hvar, inv.cnt, if_pos (by omega), inv.cstd, varianceOf, two_pass _ hWne]
    · intro h2
      rw [← hE.length_eq] at h2
      rw [inv.cnt, if_neg (by omega)]
    · have hq := inv.low
      unfold QInv at hq
      rw [if_pos (by omega)] at hq
      exact ⟨_, hq, hquart _ _ (quantAt_quartile _ 1 hN (by omega) _ rfl hW)⟩
    · have hq := inv.high
      unfold QInv at hq
      rw [if_pos (by omega)] at hq
      exact ⟨_, hq, hquart _ _ (quantAt_quartile _ 3 hN (by omega) _ rfl hW)⟩

example : ∀ e ∈ [((3 : Rat), 2), (1, 3), (5/2, 1)], 0 < e.2 := by decide +kernel
/-- the values 1, 1, 1, 5/2, 3, 3 -/
example : (numericSummary [((3 : Rat), 2), (1, 3), (5/2, 1)]).toOption.map (fun s => (s.median, s.mode, s.sum)) = some (some (7/4), some 1, 23/2) := by decide +kernel

/-! ## C66 -/

/-- the quartiles split the values: at most a quarter below the first, at most three quarters above, and conversely for the third -/
theorem C66_quartiles (vc : List (Rat × Nat)) (hne : vc ≠ []) (hpos : ∀ e ∈ vc, 0 < e.2) (s : Summary) (hs : numericSummary vc = .ok s) :
    (∃ q, s.iqrLow = some q ∧ IsQuartile 1 (expand vc) q) ∧ ∃ q, s.iqrHigh = some q ∧ IsQuartile 3 (expand vc) q := by
  obtain ⟨s', h1, _, _, _, _, _, _, _, _, h2, h3⟩ := C36_summary vc hne hpos
  rw [hs] at h1
  cases h1
  exact ⟨h2, h3⟩

theorem maxKey_spec {τ : Type} (d : List (τ × Nat)) (m : τ × Nat) (h : maxKey d = some m) : m ∈ d ∧ ∀ e ∈ d, e.2 ≤ m.2 := by
  induction d generalizing m with
  | nil => simp [maxKey] at h
  | cons e t ih =>
    simp only [maxKey] at h
    cases hm : maxKey t with
    | none =>
      rw [hm] at h
      cases t with
      | nil => simp at h; subst h; simp
      | cons a u =>
        simp only [maxKey] at hm
        cases hu : maxKey u with
        | none => rw [hu] at hm; simp at hm
        | some x => rw [hu] at hm; simp only at hm; split at hm <;> cases hm
    | some x =>
      rw [hm] at h
      simp only at h
      obtain ⟨i1, i2⟩ := ih x hm
      split at h
      · cases h
        rename_i hlt
        refine ⟨by simp [i1], ?_⟩
        intro y hy
        simp only [List.mem_cons] at hy
        rcases hy with hy | hy
        · rw [hy]; omega
        · exact i2 y hy
      · cases h
        rename_i hlt
        refine ⟨by simp, ?_⟩
        intro y hy
        simp only [List.mem_cons] at hy
        rcases hy with hy | hy
        · rw [hy]
        · have := i2 y hy; omega

/-- the entries before the chosen one are smaller -/
theorem maxKey_first {τ : Type} (d : List (τ × Nat)) (m : τ × Nat) (h : maxKey d = some m) : ∃ pre post, d = pre ++ m :: post ∧ ∀ e ∈ pre, e.2 < m.2 := by
  induction d generalizing m with
  | nil => simp [maxKey] at h
  | cons e t ih =>
    simp only [maxKey] at h
    cases hm : maxKey t with
    | none =>
      rw [hm] at h
      cases h
      exact ⟨[], t, rfl, by simp⟩
    | some x =>
      rw [hm] at h
      simp only at h
      split at h
      · cases h
        rename_i hlt
        obtain ⟨pre, post, h1, h2⟩ := ih _ hm
        refine ⟨e :: pre, post, by rw [h1]; rfl, ?_⟩
        intro y hy
        rcases List.mem_cons.1 hy with rfl | hy
        · exact hlt
        · exact h2 y hy
      · cases h
        exact ⟨[], t, rfl, by simp⟩

theorem maxKey_some {τ : Type} (d : List (τ × Nat)) (hne : d ≠ []) : ∃ m, maxKey d = some m := by
  cases d with
  | nil => exact absurd rfl hne
  | cons e t =>
    simp only [maxKey]
    cases maxKey t with
    | none => exact ⟨_, rfl⟩
    | some m => simp only; split <;> exact ⟨_, rfl⟩

theorem le_sum_mem (l : List Nat) (x : Nat) (h : x ∈ l) : x ≤ l.sum := by
  induction l with
  | nil => simp at h
  | cons a t ih =>
    simp only [List.mem_cons] at h
    rw [List.sum_cons]
    rcases h with h | h
    · omega
    · have := ih h; omega

/-- how many values of the column have type `T` -/
def typeTotal {τ β : Type} [DecidableEq τ] (ty : β → τ) (vc : List (β × Nat)) (T : τ) : Nat := ((vc.filter fun e => ty e.1 = T).map (·.2)).sum

/-- the summary is that of a type no other type outnumbers, the first such type in the order of the values, and of all its values -/
theorem C66_dominant {τ β : Type} [DecidableEq τ] (ty : β → τ) (vc : List (β × Nat)) (hpos : ∃ e ∈ vc, 0 < e.2) :
    ∃ T, dominant ty vc = some (T, vc.filter fun e => ty e.1 = T) ∧ (∃ e ∈ vc, ty e.1 = T) ∧ (∀ T', typeTotal ty vc T' ≤ typeTotal ty vc T) ∧
      ∃ pre post, firstOccs (vc.map fun e => ty e.1) = pre ++ T :: post ∧ ∀ T' ∈ pre, typeTotal ty vc T' < typeTotal ty vc T := by
  have hd : vc.foldl (fun d e => dUpd 0 (ty e.1) (· + e.2) d) [] = (firstOccs (vc.map fun e => ty e.1)).map fun T => (T, typeTotal ty vc T) := by
    have := dGroup_eq (fun e : β × Nat => ty e.1) 0 (fun e b => b + e.2) vc
    unfold dGroup at this
    rw [this]
    apply List.map_congr_left
    intro T _
    unfold typeTotal
    have hf : ∀ (l : List (β × Nat)) (b : Nat), l.foldl (fun b x => b + x.2) b = b + (l.map (·.2)).sum := by
      intro l
      induction l with
      | nil => intro b; rfl
      | cons a t ih => intro b; simp only [List.foldl_cons, ih, List.map_cons, List.sum_cons]; omega
    rw [hf, Nat.zero_add]
  unfold dominant
  dsimp only
  rw [hd]
  obtain ⟨e, he, hp⟩ := hpos
  have hmem : ty e.1 ∈ firstOccs (vc.map fun e => ty e.1) := mem_firstOccs.2 (List.mem_map_of_mem (f := fun e : β × Nat => ty e.1) he)
  have hpos' : 0 < typeTotal ty vc (ty e.1) := by
    unfold typeTotal
    have hle : e.2 ≤ ((vc.filter fun x => decide (ty x.1 = ty e.1)).map (·.2)).sum :=
      le_sum_mem _ _ (List.mem_map_of_mem (f := fun x : β × Nat => x.2) (List.mem_filter.2 ⟨he, by simp⟩))
    omega
  rw [if_neg]
  · obtain ⟨m, hm⟩ := maxKey_some ((firstOccs (vc.map fun e => ty e.1)).map fun T => (T, typeTotal ty vc T)) (by
      intro h0
      have : (ty e.1, typeTotal ty vc (ty e.1)) ∈ ((firstOccs (vc.map fun e => ty e.1)).map fun T => (T, typeTotal ty vc T)) := List.mem_map_of_mem (f := fun T => (T, typeTotal ty vc T)) hmem
      rw [h0] at this
      simp at this)
    obtain ⟨q1, q2⟩ := maxKey_spec _ m hm
    obtain ⟨pre, post, q3, q4⟩ := maxKey_first _ m hm
    rw [hm]
    rw [List.mem_map] at q1
    obtain ⟨T, hT, rfl⟩ := q1
    refine ⟨T, rfl, ?_, ?_, ?_⟩
    · have := mem_firstOccs.1 hT
      rw [List.mem_map] at this
      obtain ⟨x, hx, h⟩ := this
      exact ⟨x, hx, h⟩
    · intro T'
      by_cases h : T' ∈ firstOccs (vc.map fun e => ty e.1)
      · exact q2 (T', typeTotal ty vc T') (List.mem_map_of_mem (f := fun T => (T, typeTotal ty vc T)) h)
      · have h0 : vc.filter (fun x => decide (ty x.1 = T')) = [] := by
          rw [List.filter_eq_nil_iff]
          intro x hx hc
          apply h
          rw [mem_firstOccs, List.mem_map]
          exact ⟨x, hx, by simpa using hc⟩
        unfold typeTotal
        rw [h0]
        simp
    · obtain ⟨l1, l2, e1, e2, e3⟩ := List.map_eq_append_iff.1 q3
      obtain ⟨a, l3, e4, e5, _⟩ := List.map_eq_cons_iff.1 e3
      have ha : a = T := congrArg Prod.fst e5
      refine ⟨l1, l3, by rw [e1, e4, ha], ?_⟩
      intro T' hT'
      exact q4 (T', typeTotal ty vc T') (by rw [← e2]; exact List.mem_map_of_mem (f := fun T => (T, typeTotal ty vc T)) hT')
  · intro hall
    rw [List.all_eq_true] at hall
    have := hall _ (List.mem_map_of_mem (f := fun T => (T, typeTotal ty vc T)) hmem)
    simp at this
    omega

example : ∃ e ∈ [("a", 2), ("b", 0)], 0 < e.2 := ⟨("a", 2), by simp, by simp⟩

end Tablite
