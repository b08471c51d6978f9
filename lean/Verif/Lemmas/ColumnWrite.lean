import Verif.Model.ColumnWrite
import Verif.Lemmas.Paging
/-! Lemmas about column writes. -/

namespace Tablite

theorem setIntLoop_flatten {α} (key : Int) (v : α) (s : Int) (pages : Pages α)
    (h1 : s ≤ key) (h2 : key < s + pages.flatten.length) :
    (setIntLoop key v s pages).flatten = pages.flatten.set (key - s).toNat v := by
  induction pages generalizing s with
  | nil => simp at h2; omega
  | cons p t ih =>
    simp only [setIntLoop]
    simp only [List.flatten_cons, List.length_append] at h2
    by_cases h : s ≤ key ∧ key < s + p.length
    · rw [if_pos h]
      simp only [List.flatten_cons]
      rw [List.set_append, if_pos (by omega)]
    · rw [if_neg h, List.flatten_cons, List.flatten_cons, ih _ (by omega) (by omega)]
      rw [List.set_append, if_neg (by omega)]
      congr 2
      omega

theorem setIntLoop_lengths {α} (key : Int) (v : α) (s : Int) (pages : Pages α) :
    (setIntLoop key v s pages).map List.length = pages.map List.length := by
  induction pages generalizing s with
  | nil => rfl
  | cons p t ih =>
    simp only [setIntLoop]
    split
    · simp
    · simp [ih]

/-! ### slice assignment -/

theorem setInsertLoop_tail {α} (ks ke s : Int) (pages : Pages α) (acc : InsertAcc α)
    (h1 : ks < s) (h2 : ke < s) :
    setInsertLoop ks ke s pages acc = { acc with unchangedTail := acc.unchangedTail ++ pages } := by
  induction pages generalizing s acc with
  | nil => simp [setInsertLoop]
  | cons p t ih =>
    simp only [setInsertLoop]
    rw [if_neg (show ¬ s + (p.length : Int) ≤ ks by omega), if_neg (show ¬ (s ≤ ks ∧ ks < s + p.length) by omega),
      if_neg (show ¬ (s ≤ ke ∧ ke < s + p.length) by omega), if_pos h2]
    rw [ih (s + p.length) _ (by omega) (by omega)]
    simp

theorem setInsertLoop_mid {α} (ks ke s : Int) (pages : Pages α) (acc : InsertAcc α)
    (h1 : ks < s) (h2 : s ≤ ke) (ht : acc.tail = []) (hut : acc.unchangedTail = []) :
    (setInsertLoop ks ke s pages acc).unchangedHead = acc.unchangedHead ∧
    (setInsertLoop ks ke s pages acc).head = acc.head ∧
    (setInsertLoop ks ke s pages acc).tail ++ (setInsertLoop ks ke s pages acc).unchangedTail.flatten =
      pages.flatten.drop (ke - s).toNat ∧
    (∀ p ∈ (setInsertLoop ks ke s pages acc).unchangedTail, p ∈ pages) := by
  induction pages generalizing s acc with
  | nil => simp [setInsertLoop, ht, hut]
  | cons p t ih =>
    simp only [setInsertLoop]
    rw [if_neg (show ¬ s + (p.length : Int) ≤ ks by omega), if_neg (show ¬ (s ≤ ks ∧ ks < s + p.length) by omega), if_neg (by omega : ¬ ke < s)]
    by_cases h : s ≤ ke ∧ ke < s + p.length
    · rw [if_pos h, setInsertLoop_tail _ _ _ _ _ (by omega) (by omega)]
      simp only [hut, List.nil_append, true_and, List.flatten_cons]
      refine ⟨?_, fun q hq => by simp [hq]⟩
      rw [List.drop_append_of_le_length (by omega)]
    · rw [if_neg h]
      obtain ⟨a, b, c, d⟩ := ih (s + p.length) acc (by omega) (by omega) ht hut
      refine ⟨a, b, ?_, fun q hq => by simp [d q hq]⟩
      rw [c, List.flatten_cons, List.drop_append]
      rw [List.drop_eq_nil_of_le (by omega : p.length ≤ (ke - s).toNat)]
      simp only [List.nil_append]
      congr 1
      omega

theorem setInsertLoop_head {α} (ks ke s : Int) (pages : Pages α) (acc : InsertAcc α)
    (h1 : s ≤ ks) (h2 : ks ≤ ke) (hh : acc.head = []) (ht : acc.tail = []) (hut : acc.unchangedTail = []) :
    (setInsertLoop ks ke s pages acc).unchangedHead.flatten ++ (setInsertLoop ks ke s pages acc).head =
      acc.unchangedHead.flatten ++ pages.flatten.take (ks - s).toNat ∧
    (setInsertLoop ks ke s pages acc).tail ++ (setInsertLoop ks ke s pages acc).unchangedTail.flatten =
      pages.flatten.drop (ke - s).toNat ∧
    (∀ p ∈ (setInsertLoop ks ke s pages acc).unchangedTail, p ∈ pages) ∧
    (∀ p ∈ (setInsertLoop ks ke s pages acc).unchangedHead, p ∈ acc.unchangedHead ∨ p ∈ pages) := by
  induction pages generalizing s acc with
  | nil => simp [setInsertLoop, ht, hut, hh]
  | cons p t ih =>
    simp only [setInsertLoop]
    rw [if_neg (by omega : ¬ ke < s)]
    by_cases hA : s + p.length ≤ ks
    · rw [if_pos hA, if_neg (show ¬ (s ≤ ks ∧ ks < s + p.length) by omega), if_neg (show ¬ (s ≤ ke ∧ ke < s + p.length) by omega)]
      obtain ⟨a, b, c, d⟩ := ih (s + p.length) { acc with unchangedHead := acc.unchangedHead ++ [p] } hA hh ht hut
      refine ⟨?_, ?_, fun q hq => by simp [c q hq], ?_⟩
      · rw [a]
        simp only [List.flatten_append, List.flatten_cons, List.flatten_nil, List.append_nil, List.append_assoc]
        congr 1
        rw [List.take_append, List.take_of_length_le (i := (ks - s).toNat) (l := p) (by omega)]
        congr 2
        omega
      · rw [b, List.flatten_cons, List.drop_append, List.drop_eq_nil_of_le (by omega : p.length ≤ (ke - s).toNat)]
        simp only [List.nil_append]
        congr 1; omega
      · intro q hq
        rcases d q hq with h | h
        · simp only [List.mem_append, List.mem_singleton] at h
          rcases h with h | h
          · left; exact h
          · right; simp [h]
        · right; simp [h]
    · rw [if_neg hA, if_pos (show s ≤ ks ∧ ks < s + p.length by omega)]
      by_cases hB : s ≤ ke ∧ ke < s + p.length
      · rw [if_pos hB, setInsertLoop_tail _ _ _ _ _ (by omega) (by omega)]
        simp only [hut, List.nil_append, List.flatten_cons]
        refine ⟨?_, ?_, fun q hq => by simp [hq], fun q hq => Or.inl hq⟩
        · rw [List.take_append_of_le_length (by omega)]
        · rw [List.drop_append_of_le_length (by omega)]
      · rw [if_neg hB]
        obtain ⟨a, b, c, d⟩ := setInsertLoop_mid ks ke (s + p.length) t
          { acc with head := p.take (ks - s).toNat } (by omega) (by omega) ht hut
        refine ⟨?_, ?_, fun q hq => by simp [d q hq], fun q hq => Or.inl (by rw [a] at hq; exact hq)⟩
        · rw [a, b, List.flatten_cons, List.take_append_of_le_length (by omega)]
        · rw [c, List.flatten_cons, List.drop_append, List.drop_eq_nil_of_le (by omega : p.length ≤ (ke - s).toNat)]
          simp only [List.nil_append]
          congr 1; omega

theorem setExtendLoop_found {α} (ps : Nat) (hps : 0 < ps) (key : Int) (value : List α) (done : Pages α) (s : Int) (pages : Pages α)
    (h1 : s ≤ key) (h2 : key < s + pages.flatten.length) :
    (setExtendLoop ps key value done s pages).flatten = done.flatten ++ pages.flatten.take (key - s).toNat ++ value := by
  induction pages generalizing s done with
  | nil => simp at h2; omega
  | cons p t ih =>
    simp only [setExtendLoop]
    simp only [List.flatten_cons, List.length_append] at h2
    by_cases h : s ≤ key ∧ key < s + p.length
    · rw [if_pos h]
      simp only [extend, List.flatten_append, paginate_flatten hps, List.flatten_cons, ← List.append_assoc]
      rw [List.take_append_of_le_length (by omega)]
    · rw [if_neg h, ih (done ++ [p]) (s + p.length) (by omega) (by omega)]
      simp only [List.flatten_append, List.flatten_cons, List.flatten_nil, List.append_nil, List.append_assoc]
      rw [List.take_append, List.take_of_length_le (i := (key - s).toNat) (l := p) (by omega), List.append_assoc]
      congr 4
      omega

theorem setExtendLoop_notfound {α} (ps : Nat) (key : Int) (value : List α) (done : Pages α) (s : Int) (pages : Pages α)
    (h : key < s ∨ s + pages.flatten.length ≤ key) :
    setExtendLoop ps key value done s pages = done ++ pages ++ [value] := by
  induction pages generalizing s done with
  | nil => simp [setExtendLoop]
  | cons p t ih =>
    simp only [setExtendLoop]
    simp only [List.flatten_cons, List.length_append] at h
    rw [if_neg (by omega), ih _ _ (by omega)]
    simp

theorem setExtendLoop_sizes {α} (ps : Nat) (hps : 0 < ps) (key : Int) (value : List α) (done : Pages α) (s : Int) (pages : Pages α)
    (h1 : s ≤ key) (h2 : key < s + pages.flatten.length) :
    ∀ p ∈ setExtendLoop ps key value done s pages, p ∈ done ∨ p ∈ pages ∨ (1 ≤ p.length ∧ p.length ≤ ps) := by
  induction pages generalizing s done with
  | nil => simp at h2; omega
  | cons q t ih =>
    simp only [setExtendLoop]
    simp only [List.flatten_cons, List.length_append] at h2
    by_cases h : s ≤ key ∧ key < s + q.length
    · rw [if_pos h]
      intro p hp
      simp only [extend, List.mem_append] at hp
      rcases hp with hp | hp
      · left; exact hp
      · right; right; have := paginate_sizes hps _ p hp; omega
    · rw [if_neg h]
      intro p hp
      rcases ih _ _ (by omega) (by omega) p hp with h | h | h
      · simp only [List.mem_append, List.mem_singleton] at h
        rcases h with h | h
        · left; exact h
        · right; left; simp [h]
      · right; left; simp [h]
      · right; right; exact h

theorem setPrextendLoop_found {α} (ps : Nat) (hps : 0 < ps) (stop : Int) (value : List α) (s : Int) (pages : Pages α)
    (h1 : s ≤ stop) (h2 : stop < s + pages.flatten.length) :
    ∃ r, setPrextendLoop ps stop value s pages = some r ∧
      r.flatten = value ++ pages.flatten.drop (stop - s).toNat ∧
      ∀ p ∈ r, p ∈ pages ∨ (1 ≤ p.length ∧ p.length ≤ ps) := by
  induction pages generalizing s with
  | nil => simp at h2; omega
  | cons p t ih =>
    simp only [setPrextendLoop]
    simp only [List.flatten_cons, List.length_append] at h2
    by_cases h : s ≤ stop ∧ stop < s + p.length
    · rw [if_pos h]
      refine ⟨_, rfl, ?_, ?_⟩
      · simp only [extend, List.nil_append, List.flatten_append, paginate_flatten hps, List.flatten_cons, List.append_assoc]
        rw [List.drop_append_of_le_length (by omega)]
      · intro q hq
        simp only [extend, List.nil_append, List.mem_append] at hq
        rcases hq with hq | hq
        · right; have := paginate_sizes hps _ q hq; omega
        · left; simp [hq]
    · rw [if_neg h]
      obtain ⟨r, e1, e2, e3⟩ := ih (s + p.length) (by omega) (by omega)
      refine ⟨r, e1, ?_, ?_⟩
      · rw [e2, List.flatten_cons, List.drop_append, List.drop_eq_nil_of_le (by omega : p.length ≤ (stop - s).toNat)]
        simp only [List.nil_append]
        congr 2; omega
      · intro q hq
        rcases e3 q hq with h | h
        · left; simp [h]
        · right; exact h

theorem setPrextendLoop_notfound {α} (ps : Nat) (stop : Int) (value : List α) (s : Int) (pages : Pages α)
    (h : stop < s ∨ s + pages.flatten.length ≤ stop) :
    setPrextendLoop ps stop value s pages = none := by
  induction pages generalizing s with
  | nil => rfl
  | cons p t ih =>
    simp only [setPrextendLoop]
    simp only [List.flatten_cons, List.length_append] at h
    rw [if_neg (by omega), ih _ (by omega)]

/-! ### strided assignment -/

theorem setUpdateLoop_prefix {α} (ks ke s : Int) (pre rest : Pages α) (acc : UpdAcc α)
    (h : s + pre.flatten.length ≤ ks) (hc : acc.changed = []) :
    setUpdateLoop ks ke s (pre ++ rest) acc =
      setUpdateLoop ks ke (s + pre.flatten.length) rest { acc with head := acc.head ++ pre } := by
  induction pre generalizing s acc with
  | nil => simp
  | cons p t ih =>
    simp only [List.cons_append, setUpdateLoop]
    simp only [List.flatten_cons, List.length_append] at h
    rw [if_pos ⟨by omega, hc⟩]
    rw [ih (s + p.length) { acc with head := acc.head ++ [p] } (by omega) hc]
    simp only [List.flatten_cons, List.length_append, List.append_assoc, List.cons_append, List.nil_append]
    congr 1
    omega

theorem setUpdateLoop_suffix {α} (ks ke s : Int) (rest : Pages α) (acc : UpdAcc α)
    (h1 : ks < s) (h2 : ke < s) :
    setUpdateLoop ks ke s rest acc = { acc with tail := acc.tail ++ rest } := by
  induction rest generalizing s acc with
  | nil => simp [setUpdateLoop]
  | cons p t ih =>
    simp only [setUpdateLoop]
    rw [if_neg (by omega), if_neg (by omega), if_neg (by omega), ih _ _ (by omega) (by omega)]
    simp

theorem setMany_append_mid {α} (A new T : List α) (is : List Int) (vs : List α)
    (h : ∀ i ∈ is, (A.length : Int) ≤ i ∧ i < A.length + new.length) :
    ∃ new', setUpdateWrite (some (A.length : Int)) is vs new = .ok new' ∧
      A ++ new' ++ T = setMany (A ++ new ++ T) is vs ∧ new'.length = new.length := by
  induction is generalizing new vs with
  | nil => exact ⟨new, by simp [setUpdateWrite], by simp [setMany], rfl⟩
  | cons i t ih =>
    cases vs with
    | nil => exact ⟨new, by simp [setUpdateWrite], by simp [setMany], rfl⟩
    | cons v vs =>
      have hi := h i (by simp)
      simp only [setUpdateWrite, npSet]
      rw [if_pos (by omega)]
      simp only [bind, Except.bind]
      obtain ⟨new', h1, h2, h3⟩ := ih (new.set (i - A.length).toNat v) vs (by
        intro j hj; have := h j (by simp [hj]); simpa using this)
      refine ⟨new', h1, ?_, by simpa using h3⟩
      rw [h2]
      simp only [setMany]
      congr 1
      rw [List.set_append, if_pos (by simp; omega), List.set_append, if_neg (by omega)]
      congr 3
      omega

/-! ### deletion -/

theorem delSliceLoop_suffix {α} (ks ke s : Int) (rest : Pages α) (acc : UpdAcc α)
    (h1 : ks < s) (h2 : ke < s) (hc : acc.changed ≠ []) :
    delSliceLoop ks ke s rest acc = { acc with tail := acc.tail ++ rest } := by
  induction rest generalizing s acc with
  | nil => simp [delSliceLoop]
  | cons p t ih =>
    simp only [delSliceLoop]
    rw [if_neg (by simp [hc]), if_neg (by omega), if_neg (by omega), ih _ _ (by omega) (by omega) (by simpa using hc)]
    simp

end Tablite
