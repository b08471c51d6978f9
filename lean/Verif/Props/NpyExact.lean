import Verif.Props.Npy
/-!
# C70 exactly: which pages come back
-/

namespace Tablite

/-- the dates in an object page are days of the calendar -/
def NPage.RealDates : NPage → Prop
  | .object vs => (∀ y m d, ObjV.date y m d ∈ vs → DateOk (y, m, d)) ∧
      ∀ y m d h mi s us, ObjV.datetime y m d h mi s us ∈ vs → NDT.Ok ⟨y, m, d, h, mi, s, us * 1000⟩
  | _ => True

/-- whether the values of a page survive, in terms of the values alone -/
def NPage.Survives : NPage → Prop
  | .datetime l => ∀ x ∈ l, x.ns < 1000
  | .object vs => (∀ y m d h mi s us, ObjV.datetime y m d h mi s us ∈ vs → us = 0) ∧
      ((¬ ∃ k ∈ typedKinds, vs ≠ [] ∧ ∀ v ∈ vs, v.kind = k) →
        (∀ z, ObjV.int z ∈ vs → -2147483648 ≤ z ∧ z < 2147483648) ∧ ∀ t, ObjV.time t ∈ vs → t % 1000000 = 0)
  | _ => True

theorem plain_of_survives (p : NPage) (hv : p.Valid) (hr : p.RealDates) (h : p.Survives) : p.Plain := by
  cases p with
  | object vs =>
    obtain ⟨hv1, hv2, hv3, hv4⟩ := hv
    obtain ⟨r1, r2⟩ := hr
    obtain ⟨s1, s2⟩ := h
    refine ⟨?_, ?_⟩
    · intro _ v hm
      cases v with
      | int z => exact hv3 z hm
      | float b => exact hv2 _ hm
      | str b => exact hv4 b hm
      | date y m d => exact r1 y m d hm
      | datetime y m d h mi s us => exact ⟨r2 _ _ _ _ _ _ _ hm, s1 _ _ _ _ _ _ _ hm⟩
      | _ => trivial
    · intro hu v hm
      refine ⟨hv2 v hm, ?_⟩
      cases v with
      | int z => exact (s2 hu).1 z hm
      | time t => exact (s2 hu).2 t hm
      | datetime y m d h mi s us => exact s1 _ _ _ _ _ _ _ hm
      | _ => trivial
  | datetime l => exact h
  | _ => trivial

/-- **C70** (exact).  A page comes back with its values exactly if its datetimes have no fraction of a second and, in an object page of mixed kinds, its
integers have 32 bits and its times no fraction of a second. -/
theorem C70_exact (widen : Nat → Nat) (p : NPage) (hv : p.Valid) (hr : p.RealDates) :
    (∃ f q, npySave p = .ok f ∧ npyRead f = .ok q ∧ q.vals widen = p.vals widen) ↔ p.Survives := by
  refine ⟨?_, fun h => C70_partial widen p hv (plain_of_survives p hv hr h)⟩
  rintro ⟨f, q, h1, h2, h3⟩
  cases p with
  | datetime l =>
    refine (C70_datetime_iff widen l hv).1 ?_
    rw [h1]
    dsimp only [Except.bind]
    rw [h2]
    exact h3
  | object vs =>
    obtain ⟨hv1, hv2, hv3, hv4⟩ := hv
    have h1 : saveObject vs = .ok f := h1
    have h3 : q.vals widen = .ok vs := h3
    by_cases hu : ∃ k ∈ typedKinds, vs ≠ [] ∧ ∀ v ∈ vs, v.kind = k
    · refine ⟨?_, fun hn => absurd hu hn⟩
      intro y m d h mi s us hm
      obtain ⟨k, hk, hne, hall⟩ := hu
      have hkd : k = .datetime := (hall _ hm).symm
      subst hkd
      have ha := (activeKinds_iff vs .datetime).2 ⟨hne, hall⟩
      obtain ⟨l, hl, rfl⟩ := exists_list (fun x : NDT => ObjV.datetime x.y x.m x.d x.h x.mi x.s (x.ns / 1000)) (fun x => x.Ok ∧ x.ns % 1000 = 0) vs (by
        intro v hv
        have h1 := hall v hv
        cases v <;> simp only [ObjV.kind, reduceCtorEq] at h1
        exact ⟨_, ⟨hr.2 _ _ _ _ _ _ _ hv, by simp⟩, by simp⟩)
      rw [saveObject, ha] at h1
      dsimp only at h1
      rw [mapM_map_ok _ _ id l (fun x hx => by
        have := (hl x hx).2
        obtain ⟨y, m, d, h, mi, s, ns⟩ := x
        dsimp only at this
        show Except.ok _ = _
        congr 2
        show ns / 1000 * 1000 = ns
        omega), List.map_id] at h1
      have h1' : saveDatetimes l = f := by injection h1
      subst h1'
      rw [read_datetimes l (by simp at hv1; omega) (fun x hx => (hl x hx).1)] at h2
      injection h2 with h2
      subst h2
      rw [NPage.vals, List.map_map, Except.ok.injEq, List.map_inj_left] at h3
      obtain ⟨x, hx, he⟩ := List.mem_map.1 hm
      have h4 := h3 x hx
      simp only [Function.comp_apply, ObjV.datetime.injEq] at h4 he
      have h5 := h4.2.2.2.2.2.2
      have h6 := he.2.2.2.2.2.2
      omega
    · have hs : saveObject vs = .ok (npyHeader (txt "|O8") vs.length ++ pickleWrite vs) := by
        have hk : ∀ k ∈ typedKinds, activeKinds vs ≠ [k] := fun k hk e => hu ⟨k, hk, (activeKinds_iff vs k).1 e⟩
        rw [saveObject]
        split
        all_goals first | rfl | (rename_i e; exact absurd e (hk _ (by simp [typedKinds])))
      rw [hs] at h1
      injection h1 with h1
      subst h1
      rw [read_pickled vs hv2 hv1] at h2
      injection h2 with h2
      subst h2
      rw [NPage.vals, Except.ok.injEq] at h3
      have h4 : vs.map (distort (usOf nimUs)) = vs.map id := by rw [h3, List.map_id]
      have h5 := List.map_inj_left.1 h4
      have h6 : ∀ v ∈ vs, v.Plain := fun v hm => (distort_iff v (hv2 v hm)).1 (h5 v hm)
      exact ⟨fun y m d h mi s us hm => h6 _ hm, fun _ => ⟨fun z hm => h6 _ hm, fun t hm => h6 _ hm⟩⟩
  | _ => trivial

/-- a mixed page that survives, and one that does not -/
example : (NPage.object [.int 5, .none, .time 3000000]).Survives ∧ (NPage.object [.int 5, .none, .time 3000000]).Valid ∧
    (NPage.object [.int 5, .none, .time 3000000]).RealDates ∧ ¬ (NPage.object [.int 2147483648, .none]).Survives := by
  refine ⟨?_, ?_, ?_, ?_⟩
  · simp [NPage.Survives]
  · simp [NPage.Valid, ObjV.Fits]
  · simp [NPage.RealDates]
  · rintro ⟨-, h⟩
    have := (h (by
      rintro ⟨k, -, -, h⟩
      have h1 := h .none (by simp)
      have h2 := h (.int 2147483648) (by simp)
      rw [← h1] at h2
      simp [ObjV.kind] at h2)).1 2147483648 (by simp)
    omega

end Tablite
