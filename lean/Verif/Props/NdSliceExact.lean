import Verif.Props.NdSlice
import Verif.Props.NpyExact
/-!
# C108 exactly: which rows taken out of a page come back
-/
namespace Tablite

/-- a value a page can hold: integers of 64 bits, texts that fit a text page, days of the calendar -/
def ObjV.Held : ObjV → Prop
  | .int z => -2 ^ 63 ≤ z ∧ z < 2 ^ 63
  | .float bits => bits < 2 ^ 64
  | .str b => ∃ t, TextOk t b
  | .date y m d => DateOk (y, m, d)
  | .datetime y m d h mi s us => NDT.Ok ⟨y, m, d, h, mi, s, us * 1000⟩
  | _ => True

/-- the page made of objects of one kind survives exactly if the objects do -/
theorem narrow_uniform (vs : List ObjV) (hlen : vs.length < 2 ^ 31) (h : ∀ v ∈ vs, v.Held) (hu : ∃ k ∈ typedKinds, vs ≠ [] ∧ ∀ v ∈ vs, v.kind = k) :
    ∀ q, narrow vs = .ok q → q.Valid ∧ q.RealDates ∧ (q.Survives ↔ (NPage.object vs).Survives) := by
  intro q hq
  obtain ⟨k, hk, hne, hall⟩ := hu
  have ha := (activeKinds_iff vs k).2 ⟨hne, hall⟩
  rw [narrow, ha] at hq
  have hS : k ≠ .datetime → (NPage.object vs).Survives := by
    intro hkd
    refine ⟨?_, fun hn => absurd ⟨k, hk, hne, hall⟩ hn⟩
    intro y m d h mi s us hm
    exact absurd (hall _ hm).symm hkd
  cases k with
  | none => simp [typedKinds] at hk
  | time => simp [typedKinds] at hk
  | bool =>
    obtain ⟨l, -, rfl⟩ := exists_list ObjV.bool (fun _ => True) vs (by
      intro v hv
      have := hall v hv
      cases v <;> simp [ObjV.kind] at this ⊢)
    dsimp only at hq
    rw [mapM_map_ok _ asBool id l (fun _ _ => rfl), List.map_id] at hq
    injection hq with hq
    subst hq
    exact ⟨by simpa [NPage.Valid] using hlen, trivial, iff_of_true trivial (hS (by decide))⟩
  | int =>
    obtain ⟨l, hl, rfl⟩ := exists_list ObjV.int (fun z => -2 ^ 63 ≤ z ∧ z < 2 ^ 63) vs (by
      intro v hv
      have := hall v hv
      have := h v hv
      cases v <;> simp [ObjV.kind, ObjV.Held] at *
      assumption)
    dsimp only at hq
    rw [mapM_map_ok _ asInt id l (fun _ _ => rfl), List.map_id] at hq
    injection hq with hq
    subst hq
    refine ⟨⟨by simp, by simpa using hlen, fun z hz => ?_⟩, trivial, iff_of_true trivial (hS (by decide))⟩
    have := hl z hz
    norm_num at this ⊢
    omega
  | float =>
    obtain ⟨l, hl, rfl⟩ := exists_list ObjV.float (fun b => b < 2 ^ 64) vs (by
      intro v hv
      have := hall v hv
      have := h v hv
      cases v <;> simp [ObjV.kind, ObjV.Held] at *
      assumption)
    dsimp only at hq
    rw [mapM_map_ok _ asFloat id l (fun _ _ => rfl), List.map_id] at hq
    injection hq with hq
    subst hq
    refine ⟨⟨by simp, by simpa using hlen, fun z hz => ?_⟩, trivial, iff_of_true trivial (hS (by decide))⟩
    have := hl z hz
    norm_num at this ⊢
    omega
  | str =>
    obtain ⟨l, hl, rfl⟩ := exists_list (fun x : PyText × List Nat => ObjV.str x.2) (fun x => TextOk x.1 x.2) vs (by
      intro v hv
      have h1 := hall v hv
      have h2 := h v hv
      cases v <;> simp only [ObjV.kind, ObjV.Held, reduceCtorEq] at h1 h2
      obtain ⟨t, h2⟩ := h2
      exact ⟨(t, _), h2, rfl⟩)
    dsimp only at hq
    rw [mapM_map_ok _ asStr (fun x : PyText × List Nat => x.2) l (fun _ _ => rfl)] at hq
    have hd : (l.map fun x => x.2).mapM utf8Decode = .ok (l.map (·.1)) := by
      apply mapM_map_ok
      intro x hx
      obtain ⟨hs, he, -⟩ := hl x hx
      obtain ⟨b, hb, hdec⟩ := utf8_roundtrip x.1 hs
      have : b = x.2 := by rw [hb] at he; exact Except.ok.inj he
      rw [← this, hdec]
    simp only [textPage, Except.bind, hd] at hq
    injection hq with hq
    subst hq
    obtain ⟨g1, g2⟩ := maxRunes_spec (l.map (·.1)) 1
    refine ⟨⟨g1, maxRunes_lt _ (by norm_num) ?_, by simpa using hlen, ?_⟩, trivial, iff_of_true trivial (hS (by decide))⟩
    · intro t htm
      obtain ⟨x, hx, rfl⟩ := List.mem_map.1 htm
      have h1 := utf8Encode_length x.1 x.2 (hl x hx).2.1
      have h2 := (hl x hx).2.2.2.2
      omega
    · intro row hrow
      obtain ⟨t, htm, rfl⟩ := List.mem_map.1 hrow
      have h2 := g2 t htm
      obtain ⟨x, hx, rfl⟩ := List.mem_map.1 htm
      refine ⟨?_, ?_⟩
      · simp only [List.length_append, List.length_replicate]
        unfold maxRunes
        omega
      · intro c hc
        rcases List.mem_append.1 hc with hc | hc
        · exact (hl x hx).1 c hc
        · rw [(List.mem_replicate.1 hc).2]; unfold Scalar; norm_num
  | date =>
    obtain ⟨l, hl, rfl⟩ := exists_list (fun x : Nat × Nat × Nat => ObjV.date x.1 x.2.1 x.2.2) DateOk vs (by
      intro v hv
      have h1 := hall v hv
      have h2 := h v hv
      cases v <;> simp only [ObjV.kind, ObjV.Held, reduceCtorEq] at h1 h2
      exact ⟨(_, _, _), h2, rfl⟩)
    dsimp only at hq
    rw [mapM_map_ok _ asDate id l (fun _ _ => rfl), List.map_id] at hq
    injection hq with hq
    subst hq
    exact ⟨⟨by simpa using hlen, hl⟩, trivial, iff_of_true trivial (hS (by decide))⟩
  | datetime =>
    obtain ⟨l, hl, rfl⟩ := exists_list (fun x : NDT => ObjV.datetime x.y x.m x.d x.h x.mi x.s x.ns) (fun x => NDT.Ok ⟨x.y, x.m, x.d, x.h, x.mi, x.s, x.ns * 1000⟩) vs (by
      intro v hv
      have h1 := hall v hv
      have h2 := h v hv
      cases v <;> simp only [ObjV.kind, ObjV.Held, reduceCtorEq] at h1 h2
      rename_i y m d h mi s us
      exact ⟨⟨y, m, d, h, mi, s, us⟩, h2, rfl⟩)
    dsimp only at hq
    rw [mapM_map_ok _ asDatetime (fun x : NDT => { x with ns := x.ns * 1000 }) l (fun _ _ => rfl)] at hq
    injection hq with hq
    subst hq
    refine ⟨⟨by simpa using hlen, ?_⟩, trivial, ?_⟩
    · intro x hx
      obtain ⟨y, hy, rfl⟩ := List.mem_map.1 hx
      exact hl y hy
    · constructor
      · intro hs
        refine ⟨?_, fun hn => absurd ⟨_, hk, hne, hall⟩ hn⟩
        intro y m d h mi s us hm
        obtain ⟨x, hx, e⟩ := List.mem_map.1 hm
        have := hs _ (List.mem_map.2 ⟨x, hx, rfl⟩)
        simp only [ObjV.datetime.injEq] at e
        dsimp only at this
        have := e.2.2.2.2.2.2
        omega
      · rintro ⟨hs, -⟩ x hx
        obtain ⟨y, hy, rfl⟩ := List.mem_map.1 hx
        have := hs _ _ _ _ _ _ _ (List.mem_map.2 ⟨y, hy, rfl⟩)
        dsimp only
        omega

/-- the page made of any objects -/
theorem narrow_exact (vs : List ObjV) (hv : (NPage.object vs).Valid) (hr : (NPage.object vs).RealDates) :
    ∀ q, narrow vs = .ok q → q.Valid ∧ q.RealDates ∧ (q.Survives ↔ (NPage.object vs).Survives) := by
  intro q hq
  by_cases hu : ∃ k ∈ typedKinds, vs ≠ [] ∧ ∀ v ∈ vs, v.kind = k
  · refine narrow_uniform vs hv.1 ?_ hu q hq
    intro v hm
    cases v with
    | int z => exact hv.2.2.1 z hm
    | float b => exact hv.2.1 _ hm
    | str b => exact hv.2.2.2 b hm
    | date y m d => exact hr.1 y m d hm
    | datetime y m d h mi s us => exact hr.2 _ _ _ _ _ _ _ hm
    | _ => trivial
  · have hk : ∀ k ∈ typedKinds, activeKinds vs ≠ [k] := fun k hk e => hu ⟨k, hk, (activeKinds_iff vs k).1 e⟩
    have : narrow vs = .ok (.object vs) := by
      rw [narrow]
      split
      all_goals first | rfl | (rename_i e; exact absurd e (hk _ (by simp [typedKinds])))
    rw [this] at hq
    injection hq with hq
    subst hq
    exact ⟨hv, hr, Iff.rfl⟩

/-- spec: the rows at the indices survive: datetimes without fractions of a second; rows of objects that are not all of one kind also with integers of 32 bits and
times without fractions -/
def NPage.RowsSurvive (idx : List Nat) : NPage → Prop
  | .datetime l => ∀ x ∈ atIdx idx l, x.ns < 1000
  | .object vs => (NPage.object (atIdx idx vs)).Survives
  | _ => True

/-- **C108**, exactly which rows come back when they are taken out of a page, saved and read again -/
theorem C108_exact (widen : Nat → Nat) (idx : List Nat) (p : NPage) (vs : List ObjV) (hv : p.Valid) (hr : p.RealDates) (hvs : p.vals widen = .ok vs)
    (hi : ∀ i ∈ idx, i < p.rows) (hn : idx.length < 2 ^ 31) :
    (∃ q f r, npageTake idx p = .ok q ∧ npySave q = .ok f ∧ npyRead f = .ok r ∧ r.vals widen = .ok (atIdx idx vs)) ↔ p.RowsSurvive idx := by
  have ht : p.TextsFit := by
    cases p with
    | object l =>
      intro v hvl
      cases v with
      | str b => exact hv.2.2.2 b hvl
      | _ => trivial
    | _ => trivial
  obtain ⟨q, h1, h2⟩ := C108_rows widen idx p hi ht vs hvs
  have hq : q.Valid ∧ q.RealDates ∧ (q.Survives ↔ p.RowsSurvive idx) := by
    have hl := fun {β : Type} (l : List β) (h : ∀ i ∈ idx, i < l.length) => (atIdx_length idx l h).trans_lt hn
    cases p with
    | bool l =>
      rw [npageTake, pickIdx_ok idx l hi] at h1; injection h1 with h1; subst h1
      exact ⟨hl l hi, trivial, Iff.rfl⟩
    | int size l =>
      rw [npageTake, pickIdx_ok idx l hi] at h1; injection h1 with h1; subst h1
      exact ⟨⟨hv.1, hl l hi, fun z hz => hv.2.2 z (atIdx_mem idx l z hz)⟩, trivial, Iff.rfl⟩
    | float size l =>
      rw [npageTake, pickIdx_ok idx l hi] at h1; injection h1 with h1; subst h1
      exact ⟨⟨hv.1, hl l hi, fun z hz => hv.2.2 z (atIdx_mem idx l z hz)⟩, trivial, Iff.rfl⟩
    | str size l =>
      rw [npageTake, pickIdx_ok idx l hi] at h1; injection h1 with h1; subst h1
      exact ⟨⟨hv.1, hv.2.1, hl l hi, fun z hz => hv.2.2.2 z (atIdx_mem idx l z hz)⟩, trivial, Iff.rfl⟩
    | date l =>
      rw [npageTake, pickIdx_ok idx l hi] at h1; injection h1 with h1; subst h1
      exact ⟨⟨hl l hi, fun z hz => hv.2 z (atIdx_mem idx l z hz)⟩, trivial, Iff.rfl⟩
    | datetime l =>
      rw [npageTake, pickIdx_ok idx l hi] at h1; injection h1 with h1; subst h1
      exact ⟨⟨hl l hi, fun z hz => hv.2 z (atIdx_mem idx l z hz)⟩, trivial, Iff.rfl⟩
    | object l =>
      rw [npageTake, pickIdx_ok idx l hi] at h1
      have hm := atIdx_mem idx l
      refine narrow_exact _ ⟨hl l hi, fun v hx => hv.2.1 v (hm _ hx), fun z hx => hv.2.2.1 z (hm _ hx), fun b hx => hv.2.2.2 b (hm _ hx)⟩
        ⟨fun y m d hx => hr.1 y m d (hm _ hx), fun y m d h mi s us hx => hr.2 _ _ _ _ _ _ _ (hm _ hx)⟩ q h1
  rw [← hq.2.2, ← C70_exact widen q hq.1 hq.2.1]
  constructor
  · rintro ⟨q', f, r, e1, e2, e3, e4⟩
    rw [h1] at e1
    cases e1
    exact ⟨f, r, e2, e3, e4.trans h2.symm⟩
  · rintro ⟨f, r, e2, e3, e4⟩
    exact ⟨q, f, r, h1, e2, e3, e4.trans h2⟩

/-- the first row of a page of a large integer and None survives alone, but not both rows together -/
example : (NPage.object [.int 2147483648, .none]).RowsSurvive [0] ∧ ¬ (NPage.object [.int 2147483648, .none]).RowsSurvive [0, 1] ∧
    (NPage.object [.int 2147483648, .none]).Valid ∧ (NPage.object [.int 2147483648, .none]).RealDates := by
  refine ⟨⟨by simp [atIdx], fun hn => absurd ⟨.int, by simp [typedKinds], by simp [atIdx], by simp [atIdx, ObjV.kind]⟩ hn⟩, ?_, ?_, by simp [NPage.RealDates]⟩
  · rintro ⟨-, h⟩
    have := (h (by
      rintro ⟨k, -, -, h⟩
      have h1 := h .none (by simp [atIdx])
      have h2 := h (.int 2147483648) (by simp [atIdx])
      rw [← h1] at h2
      simp [ObjV.kind] at h2)).1 2147483648 (by simp [atIdx])
    omega
  · refine ⟨by decide, ?_, ?_, by simp⟩
    · intro v hv; simp at hv; rcases hv with rfl | rfl <;> simp [ObjV.Fits]
    · intro z hz; simp at hz; subst hz; norm_num

end Tablite
