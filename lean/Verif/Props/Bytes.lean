import Verif.Model.Bytes
import Verif.Props.Refcount
import Verif.Props.GroupLaws
/-!
# C136: the bytes of a table
-/

namespace Tablite

section
variable {ν η : Type} [DecidableEq η]

/-- the page objects of a table, in order -/
def pagesOf (t : RTbl ν η) : List (PageObj η) := t.flatMap (·.2)

/-- spec: the bytes of the files of a table: every file once -/
def diskBytes (size : η → Nat) (t : RTbl ν η) : Nat := ((firstOccs ((pagesOf t).map (·.file))).map size).sum

/-- spec: the bytes if every page had its own file -/
def flatBytes (size : η → Nat) (t : RTbl ν η) : Nat := ((pagesOf t).map fun p => size p.file).sum

/-- spec: the bytes of the page objects, every object once -/
def objBytes (size : η → Nat) (t : RTbl ν η) : Nat := ((firstOccs (pagesOf t)).map fun p => size p.file).sum

/-- the dictionary after the pages `l` were measured -/
def Measured (size : η → Nat) (real : List (PageObj η × Nat)) (l : List (PageObj η)) : Prop :=
  (real.map (·.1)).Nodup ∧ (∀ x, x ∈ real.map (·.1) ↔ x ∈ l) ∧ ∀ e ∈ real, e.2 = size e.1.file

theorem statPages_ok (stat : η → Except Err Nat) (size : η → Nat) (ps : List (PageObj η)) (hs : ∀ p ∈ ps, stat p.file = .ok (size p.file)) (real : List (PageObj η × Nat)) (l : List (PageObj η))
    (h : Measured size real l) : ∃ r, statPages stat real ps = .ok r ∧ Measured size r (l ++ ps) := by
  induction ps generalizing real l with
  | nil => exact ⟨real, rfl, by simpa using h⟩
  | cons p ps ih =>
    have key : Measured size (dSet p (size p.file) real) (l ++ [p]) := by
      obtain ⟨h1, h2, h3⟩ := h
      by_cases hp : p ∈ real.map (·.1)
      · have e : dSet p (size p.file) real = real := by
          clear h2
          induction real with
          | nil => simp at hp
          | cons a real ihr =>
            unfold dSet dUpd
            by_cases ha : a.1 = p
            · rw [if_pos ha]
              have := h3 a (by simp)
              rw [ha] at this
              rw [← this]
            · rw [if_neg ha]
              rw [List.map_cons, List.nodup_cons] at h1
              rw [List.map_cons, List.mem_cons] at hp
              have := ihr h1.2 (fun e he => h3 e (by simp [he])) (hp.resolve_left fun e => ha e.symm)
              unfold dSet at this
              rw [this]
        rw [e]
        refine ⟨h1, fun x => ?_, h3⟩
        rw [h2, List.mem_append, List.mem_singleton]
        constructor
        · exact .inl
        · rintro (hx | rfl)
          · exact hx
          · exact (h2 _).1 hp
      · have e : dSet p (size p.file) real = real ++ [(p, size p.file)] := by
          clear h1 h2 h3
          induction real with
          | nil => rfl
          | cons a real ihr =>
            rw [List.map_cons, List.mem_cons, not_or] at hp
            unfold dSet dUpd
            rw [if_neg fun e => hp.1 e.symm]
            have := ihr hp.2
            unfold dSet at this
            rw [this]
            rfl
        rw [e]
        refine ⟨?_, fun x => ?_, ?_⟩
        · rw [List.map_append, List.nodup_append]
          refine ⟨h1, by simp, ?_⟩
          rintro a ha b hb rfl
          simp only [List.map_cons, List.map_nil, List.mem_singleton] at hb
          exact hp (hb ▸ ha)
        · rw [List.map_append, List.mem_append, h2, List.mem_append]
          simp
        · intro x hx
          rcases List.mem_append.1 hx with hx | hx
          · exact h3 x hx
          · simp only [List.mem_singleton] at hx
            subst hx
            rfl
    obtain ⟨r, r1, r2⟩ := ih (fun q hq => hs q (by simp [hq])) _ _ key
    refine ⟨r, ?_, by simpa using r2⟩
    rw [statPages, hs p (by simp)]
    exact r1

theorem addPages_ok (size : η → Nat) (real : List (PageObj η × Nat)) (l ps : List (PageObj η)) (h : Measured size real l) (hp : ∀ p ∈ ps, p ∈ l) (total : Nat) :
    addPages real total ps = .ok (total + (ps.map fun p => size p.file).sum) := by
  induction ps generalizing total with
  | nil => rfl
  | cons p ps ih =>
    have hm := (dGet_isSome p real).2 ((h.2.1 p).2 (hp p (by simp)))
    obtain ⟨n, hn⟩ := Option.isSome_iff_exists.1 hm
    have e := h.2.2 _ (dGet_some_mem _ _ _ hn)
    dsimp only at e
    subst e
    rw [addPages, hn]
    dsimp only
    rw [ih (fun q hq => hp q (by simp [hq])), List.map_cons, List.sum_cons, Nat.add_assoc]

theorem nbytesLoop_ok (stat : η → Except Err Nat) (size : η → Nat) (ord : List (PageObj η) → List (PageObj η)) (hord : ∀ l x, x ∈ ord l ↔ x ∈ l) (t : RTbl ν η)
    (hs : ∀ p ∈ pagesOf t, stat p.file = .ok (size p.file)) (real : List (PageObj η × Nat)) (l : List (PageObj η)) (h : Measured size real l) (total : Nat) :
    ∃ r, nbytesLoop stat ord real total t = .ok (r, total + flatBytes size t) ∧ Measured size r (l ++ pagesOf t) := by
  induction t generalizing real l total with
  | nil => exact ⟨real, rfl, by simpa [pagesOf] using h⟩
  | cons c t ih =>
    obtain ⟨r, r1, r2⟩ := statPages_ok stat size (ord c.2) (fun p hp => hs p (by simp [pagesOf, (hord _ _).1 hp])) real l h
    have r3 : Measured size r (l ++ c.2) := ⟨r2.1, fun x => by rw [r2.2.1, List.mem_append, List.mem_append, hord], r2.2.2⟩
    obtain ⟨r', q1, q2⟩ := ih (fun p hp => hs p (by unfold pagesOf at hp ⊢; rw [List.flatMap_cons]; exact List.mem_append_right _ hp)) r (l ++ c.2) r3 (total + (c.2.map fun p => size p.file).sum)
    refine ⟨r', ?_, ?_⟩
    · rw [nbytesLoop, r1]
      show (addPages r total c.2).bind _ = _
      rw [addPages_ok size r (l ++ c.2) c.2 r3 (by simp +contextual)]
      show nbytesLoop stat ord r _ t = _
      rw [q1]
      simp [flatBytes, pagesOf, Nat.add_assoc]
    · rw [List.append_assoc] at q2
      simpa [pagesOf] using q2

/-- **C136** (partial) `nbytes` tells the bytes of the page objects, every object once, and the bytes of all pages.  Missing: the first number is the bytes on disk only if no file belongs to two page objects,
see `C136_exact`. -/
theorem C136_partial (stat : η → Except Err Nat) (size : η → Nat) (ord : List (PageObj η) → List (PageObj η)) (hord : ∀ l x, x ∈ ord l ↔ x ∈ l) (t : RTbl ν η)
    (hs : ∀ p ∈ pagesOf t, stat p.file = .ok (size p.file)) : nbytes stat ord t = .ok (objBytes size t, flatBytes size t) := by
  obtain ⟨r, h1, h2⟩ := nbytesLoop_ok stat size ord hord t hs [] [] ⟨by simp, by simp, by simp⟩ 0
  unfold nbytes
  rw [h1]
  show Except.ok _ = _
  rw [Nat.zero_add, List.nil_append] at *
  congr 2
  have hp : (r.map (·.1)).Perm (firstOccs (pagesOf t)) := by
    rw [List.perm_ext_iff_of_nodup h2.1 (nodup_firstOccs _)]
    intro x
    rw [h2.2.1, mem_firstOccs]
  unfold objBytes
  rw [← (hp.map fun p => size p.file).sum_eq, List.map_map]
  congr 1
  exact List.map_congr_left fun e he => h2.2.2 e he

end

/-! ## sums -/

theorem sum_eq_of_le {κ : Type} (a b : κ → Nat) (K : List κ) (h : ∀ k ∈ K, a k ≤ b k) : (K.map a).sum ≤ (K.map b).sum ∧ ((K.map a).sum = (K.map b).sum ↔ ∀ k ∈ K, a k = b k) := by
  induction K with
  | nil => simp
  | cons k K ih =>
    obtain ⟨h1, h2⟩ := ih fun x hx => h x (by simp [hx])
    have hk := h k (by simp)
    simp only [List.map_cons, List.sum_cons, List.mem_cons, forall_eq_or_imp]
    refine ⟨by omega, ?_, ?_⟩
    · intro e
      refine ⟨by omega, h2.1 (by omega)⟩
    · rintro ⟨e1, e2⟩
      have := h2.2 e2
      omega

/-- adding the values of a list by key: every key once is less, and as much only if no key with a value occurs twice -/
theorem keys_sum {ι κ : Type} [DecidableEq κ] (key : ι → κ) (size : κ → Nat) (l : List ι) :
    ((firstOccs (l.map key)).map size).sum ≤ (l.map fun x => size (key x)).sum ∧
      (((firstOccs (l.map key)).map size).sum = (l.map fun x => size (key x)).sum ↔ ∀ k ∈ l.map key, size k ≠ 0 → (l.map key).count k = 1) := by
  have hg := sum_groups key (fun x => size (key x)) l
  have hin : ∀ k, ((l.filter fun x => key x = k).map fun x => size (key x)).sum = (l.map key).count k * size k := by
    intro k
    induction l with
    | nil => simp
    | cons x l ih =>
      have ih := ih (sum_groups key (fun x => size (key x)) l)
      rw [List.filter_cons, List.map_cons, List.count_cons]
      by_cases hx : key x = k
      · simp only [hx, decide_true, if_true, List.map_cons, List.sum_cons, ih, beq_self_eq_true]
        rw [Nat.add_mul, Nat.one_mul, Nat.add_comm]
      · have : (key x == k) = false := by simpa using hx
        simp only [hx, decide_false, this]
        simpa using ih
  rw [← hg, List.map_congr_left fun k _ => hin k]
  have hpos : ∀ k ∈ firstOccs (l.map key), 0 < (l.map key).count k := fun k hk => List.count_pos_iff.2 (mem_firstOccs.1 hk)
  have := sum_eq_of_le size (fun k => (l.map key).count k * size k) (firstOccs (l.map key)) (fun k hk => Nat.le_mul_of_pos_left _ (hpos k hk))
  refine ⟨this.1, this.2.trans ⟨?_, ?_⟩⟩
  · intro h k hk hz
    have h1 := h k (mem_firstOccs.2 hk)
    have h2 : 1 * size k = (l.map key).count k * size k := by rw [Nat.one_mul]; exact h1
    exact (Nat.eq_of_mul_eq_mul_right (Nat.pos_of_ne_zero hz) h2).symm
  · intro h k hk
    by_cases hz : size k = 0
    · rw [hz, Nat.mul_zero]
    · rw [h k (mem_firstOccs.1 hk) hz, Nat.one_mul]

section
variable {ν η : Type} [DecidableEq η]

/-- the files of the objects -/
theorem diskBytes_objs (size : η → Nat) (t : RTbl ν η) : diskBytes size t = ((firstOccs ((firstOccs (pagesOf t)).map (·.file))).map size).sum := by
  unfold diskBytes
  have hp : (firstOccs ((pagesOf t).map (·.file))).Perm (firstOccs ((firstOccs (pagesOf t)).map (·.file))) := by
    rw [List.perm_ext_iff_of_nodup (nodup_firstOccs _) (nodup_firstOccs _)]
    intro f
    simp only [mem_firstOccs, List.mem_map]
  exact (hp.map size).sum_eq

theorem count_one_iff {ι κ : Type} [DecidableEq κ] (key : ι → κ) (l : List ι) (hl : l.Nodup) (k : κ) (hk : k ∈ l.map key) : (l.map key).count k = 1 ↔ ∀ x ∈ l, ∀ y ∈ l, key x = k → key y = k → x = y := by
  have e : (l.map key).count k = (l.filter fun x => key x = k).length := by
    rw [List.count, List.countP_map, List.countP_eq_length_filter]
    congr 1
  rw [e]
  constructor
  · intro h x hx y hy h1 h2
    obtain ⟨a, ha⟩ := List.length_eq_one_iff.1 h
    have hx' : x ∈ l.filter fun x => key x = k := List.mem_filter.2 ⟨hx, by simpa using h1⟩
    have hy' : y ∈ l.filter fun x => key x = k := List.mem_filter.2 ⟨hy, by simpa using h2⟩
    rw [ha, List.mem_singleton] at hx' hy'
    rw [hx', hy']
  · intro h
    obtain ⟨x, hx, hxk⟩ := List.mem_map.1 hk
    have hx' : x ∈ l.filter fun x => key x = k := List.mem_filter.2 ⟨hx, by simpa using hxk⟩
    have hn := hl.filter fun x => key x = k
    have hall : ∀ y ∈ l.filter fun x => key x = k, y = x := fun y hy => h y (List.mem_filter.1 hy).1 x hx (by simpa using (List.mem_filter.1 hy).2) hxk
    have hle : (l.filter fun x => key x = k).length ≤ 1 := by
      match hm : l.filter fun x => key x = k with
      | [] => simp
      | [_] => simp
      | a :: b :: m =>
        rw [hm] at hn hall
        have h1 := hall a (by simp)
        have h2 := hall b (by simp)
        simp [h1, h2] at hn
    have := List.length_pos_of_mem hx'
    omega

/-- **C136** (exact) the first number of `nbytes` is never less than the bytes on disk, and it is the bytes on disk exactly if no file with content belongs to two page objects of the table -/
theorem C136_exact (stat : η → Except Err Nat) (size : η → Nat) (ord : List (PageObj η) → List (PageObj η)) (hord : ∀ l x, x ∈ ord l ↔ x ∈ l) (t : RTbl ν η)
    (hs : ∀ p ∈ pagesOf t, stat p.file = .ok (size p.file)) (real total : Nat) (h : nbytes stat ord t = .ok (real, total)) :
    diskBytes size t ≤ real ∧ (real = diskBytes size t ↔ ∀ p ∈ pagesOf t, ∀ q ∈ pagesOf t, p.file = q.file → size p.file ≠ 0 → p = q) := by
  rw [C136_partial stat size ord hord t hs] at h
  injection h with h
  injection h with h1 h2
  subst h1
  have hk := keys_sum (fun p : PageObj η => p.file) size (firstOccs (pagesOf t))
  rw [diskBytes_objs]
  refine ⟨hk.1, ?_⟩
  rw [eq_comm]
  refine hk.2.trans ⟨?_, ?_⟩
  · intro h p hp q hq e hz
    have hm : p.file ∈ (firstOccs (pagesOf t)).map (·.file) := List.mem_map.2 ⟨p, mem_firstOccs.2 hp, rfl⟩
    exact (count_one_iff (fun p : PageObj η => p.file) _ (nodup_firstOccs _) _ hm).1 (h _ hm hz) p (mem_firstOccs.2 hp) q (mem_firstOccs.2 hq) rfl e.symm
  · intro h f hf hz
    refine (count_one_iff (fun p : PageObj η => p.file) _ (nodup_firstOccs _) _ hf).2 fun x hx y hy e1 e2 => ?_
    exact h x (mem_firstOccs.1 hx) y (mem_firstOccs.1 hy) (e1.trans e2.symm) (e1 ▸ hz)

/-- C136: the first number is at most the second, and equal exactly if no page object with content is used twice -/
theorem C136_shared (stat : η → Except Err Nat) (size : η → Nat) (ord : List (PageObj η) → List (PageObj η)) (hord : ∀ l x, x ∈ ord l ↔ x ∈ l) (t : RTbl ν η)
    (hs : ∀ p ∈ pagesOf t, stat p.file = .ok (size p.file)) (real total : Nat) (h : nbytes stat ord t = .ok (real, total)) :
    real ≤ total ∧ (real = total ↔ ∀ p ∈ pagesOf t, size p.file ≠ 0 → (pagesOf t).count p = 1) := by
  rw [C136_partial stat size ord hord t hs] at h
  injection h with h
  injection h with h1 h2
  subst h1 h2
  have hk := keys_sum (fun p : PageObj η => p) (fun p => size p.file) (pagesOf t)
  rw [List.map_id'] at hk
  exact hk

/-- C136: a repeated table uses the disk of one, and counts as many as it is repeated; zero or negative numbers are refused -/
theorem C136_repeat (stat : η → Except Err Nat) (size : η → Nat) (ord : List (PageObj η) → List (PageObj η)) (hord : ∀ l x, x ∈ ord l ↔ x ∈ l) (t : RTbl ν η)
    (hs : ∀ p ∈ pagesOf t, stat p.file = .ok (size p.file)) (n : Int) (hn : 0 < n) (real total : Nat) (h : nbytes stat ord t = .ok (real, total)) :
    ∃ t', rMul t n = .ok t' ∧ nbytes stat ord t' = .ok (real, n.toNat * total) ∧ diskBytes size t' = diskBytes size t := by
  refine ⟨_, by rw [rMul, if_pos hn], ?_⟩
  have hmem : ∀ x, x ∈ pagesOf (t.map fun c => (c.1, (List.replicate n.toNat c.2).flatten)) ↔ x ∈ pagesOf t := by
    intro x
    simp only [pagesOf, List.mem_flatMap, List.mem_map]
    constructor
    · rintro ⟨c, ⟨a, ha, rfl⟩, hx⟩
      obtain ⟨l, hl, hx⟩ := List.mem_flatten.1 hx
      exact ⟨a, ha, (List.eq_of_mem_replicate hl) ▸ hx⟩
    · rintro ⟨a, ha, hx⟩
      exact ⟨_, ⟨a, ha, rfl⟩, List.mem_flatten.2 ⟨a.2, List.mem_replicate.2 ⟨by omega, rfl⟩, hx⟩⟩
  rw [C136_partial stat size ord hord t hs] at h
  injection h with h
  injection h with h1 h2
  subst h1 h2
  rw [C136_partial stat size ord hord _ fun p hp => hs p ((hmem p).1 hp)]
  have hp : (firstOccs (pagesOf (t.map fun c => (c.1, (List.replicate n.toNat c.2).flatten)))).Perm (firstOccs (pagesOf t)) := by
    rw [List.perm_ext_iff_of_nodup (nodup_firstOccs _) (nodup_firstOccs _)]
    intro x
    rw [mem_firstOccs, mem_firstOccs, hmem]
  have hf : (firstOccs ((pagesOf (t.map fun c => (c.1, (List.replicate n.toNat c.2).flatten))).map (·.file))).Perm (firstOccs ((pagesOf t).map (·.file))) := by
    rw [List.perm_ext_iff_of_nodup (nodup_firstOccs _) (nodup_firstOccs _)]
    intro x
    simp only [mem_firstOccs, List.mem_map, hmem]
  refine ⟨?_, (hf.map size).sum_eq⟩
  congr 2
  · exact (hp.map fun p => size p.file).sum_eq
  · clear hs hmem hp hf
    have hr : ∀ (m : Nat) (l : List (PageObj η)), ((List.replicate m l).flatten.map fun p => size p.file).sum = m * (l.map fun p => size p.file).sum := by
      intro m l
      induction m with
      | zero => simp
      | succ m ih => rw [List.replicate_succ, List.flatten_cons, List.map_append, List.sum_append, ih, Nat.succ_mul, Nat.add_comm]
    unfold flatBytes pagesOf
    induction t with
    | nil => rfl
    | cons c t ih => rw [List.map_cons, List.flatMap_cons, List.map_append, List.sum_append, hr, ih, List.flatMap_cons, List.map_append, List.sum_append, Nat.mul_add]

/-- C136: a page whose file is missing: FileNotFoundError -/
theorem C136_missing (ord : List (PageObj η) → List (PageObj η)) (hord : ∀ l x, x ∈ ord l ↔ x ∈ l) (stat : η → Except Err Nat) (t : RTbl ν η) (p : PageObj η) (hp : p ∈ pagesOf t)
    (h : ∀ f, stat f = .error .other ∨ ∃ n, stat f = .ok n) (hmiss : stat p.file = .error .other) : nbytes stat ord t = .error .other := by
  have hst : ∀ (ps : List (PageObj η)) (real : List (PageObj η × Nat)), (∃ q ∈ ps, stat q.file = .error .other) → statPages stat real ps = .error .other := by
    intro ps
    induction ps with
    | nil => rintro _ ⟨q, hq, -⟩; simp at hq
    | cons a ps ih =>
      rintro real ⟨q, hq, hqe⟩
      rw [statPages]
      rcases h a.file with ha | ⟨n, ha⟩
      · rw [ha]; rfl
      · rw [ha]
        refine ih _ ?_
        rcases List.mem_cons.1 hq with rfl | hq
        · rw [ha] at hqe; cases hqe
        · exact ⟨q, hq, hqe⟩
  have loop : ∀ (u : RTbl ν η) (real : List (PageObj η × Nat)) (l : List (PageObj η)) (total : Nat) (size : η → Nat), (∀ f n, stat f = .ok n → size f = n) → Measured size real l → p ∈ pagesOf u →
      nbytesLoop stat ord real total u = .error .other := by
    intro u
    induction u with
    | nil => intro _ _ _ _ _ _ hu; simp [pagesOf] at hu
    | cons c u ih =>
      intro real l total size hsz hm hu
      rw [nbytesLoop]
      by_cases hc : ∃ q ∈ ord c.2, stat q.file = .error .other
      · rw [hst _ _ hc]; rfl
      · have hall : ∀ q ∈ ord c.2, stat q.file = .ok (size q.file) := by
          intro q hq
          rcases h q.file with he | ⟨n, he⟩
          · exact absurd ⟨q, hq, he⟩ hc
          · rw [he, hsz _ _ he]
        obtain ⟨r, r1, r2⟩ := statPages_ok stat size (ord c.2) hall real l hm
        have r3 : Measured size r (l ++ c.2) := ⟨r2.1, fun x => by rw [r2.2.1, List.mem_append, List.mem_append, hord], r2.2.2⟩
        rw [r1]
        show (addPages r total c.2).bind _ = _
        rw [addPages_ok size r (l ++ c.2) c.2 r3 (by simp +contextual)]
        refine ih r (l ++ c.2) _ size hsz r3 ?_
        unfold pagesOf at hu ⊢
        rw [List.flatMap_cons, List.mem_append] at hu
        refine hu.resolve_left fun hpc => ?_
        exact hc ⟨p, (hord _ _).2 hpc, hmiss⟩
  unfold nbytes
  rw [loop t [] [] 0 (fun f => match stat f with | .ok n => n | .error _ => 0) (by intro f n e; simp [e]) ⟨by simp, by simp, by simp⟩ hp]
  rfl

end

/-- the full claim: the first number is the bytes of the files of the table -/
def C136_statement : Prop :=
  ∀ (size : Nat → Nat) (t : RTbl String Nat), nbytes (fun f => .ok (size f)) id t = .ok (diskBytes size t, flatBytes size t)

/-- a table to which its own unpickled copy is appended: the file of 160 bytes is counted twice -/
theorem C136_effect : let t : RTbl String Nat := [("a", [⟨1, 7⟩])]
    rIAdd t (rUnpickle (· + 100) t) = .ok [("a", [⟨1, 7⟩, ⟨101, 7⟩])] ∧
    nbytes (fun _ => .ok 160) id [("a", [⟨1, 7⟩, ⟨101, 7⟩])] = .ok (320, 320) ∧ diskBytes (fun _ => 160) ([("a", [⟨1, 7⟩, ⟨101, 7⟩])] : RTbl String Nat) = 160 := by
  refine ⟨by rfl, by rfl, by decide⟩

theorem C136_fails : ¬ C136_statement := by
  intro h
  have h1 := h (fun _ => 160) [("a", [⟨1, 7⟩, ⟨101, 7⟩])]
  have h2 : diskBytes (fun _ => 160) ([("a", [⟨1, 7⟩, ⟨101, 7⟩])] : RTbl String Nat) = 160 := by decide
  rw [C136_effect.2.1, h2] at h1
  injection h1 with h1
  injection h1 with h1
  omega

/-- two columns with a page in common, one of them with the page twice -/
example : (∀ p ∈ pagesOf ([("a", [⟨1, 7⟩, ⟨2, 8⟩]), ("b", [⟨1, 7⟩, ⟨1, 7⟩])] : RTbl String Nat), (fun f : Nat => (Except.ok (100 + f) : Except Err Nat)) p.file = .ok ((fun f => 100 + f) p.file)) ∧
    nbytes (fun f => .ok (100 + f)) List.reverse ([("a", [⟨1, 7⟩, ⟨2, 8⟩]), ("b", [⟨1, 7⟩, ⟨1, 7⟩])] : RTbl String Nat) = .ok (215, 429) := ⟨fun _ _ => rfl, by rfl⟩

/-- `C136_missing`: the file of the second column is gone -/
example : nbytes (fun f => if f = 8 then .error .other else .ok 100) id ([("a", [⟨1, 7⟩]), ("b", [⟨2, 8⟩])] : RTbl String Nat) = .error .other := by rfl

end Tablite
