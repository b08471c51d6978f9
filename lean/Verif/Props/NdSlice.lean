import Verif.Model.NdSlice
import Verif.Props.Npy
/-!
# C108: rows taken out of a page by the native code
-/

namespace Tablite

/-- spec: the elements at the positions -/
def atIdx {β : Type} (idx : List Nat) (l : List β) : List β := idx.filterMap fun i => l[i]?

theorem pickIdx_ok {β : Type} (idx : List Nat) (l : List β) (h : ∀ i ∈ idx, i < l.length) : pickIdx idx l = .ok (atIdx idx l) := by
  induction idx with
  | nil => rfl
  | cons i r ih =>
    have hi := h i (by simp)
    have e : l[i]? = some l[i] := List.getElem?_eq_getElem hi
    unfold pickIdx at ih ⊢
    rw [List.mapM_cons, ih fun j hj => h j (by simp [hj]), e]
    simp only [atIdx, List.filterMap_cons, e]
    rfl

theorem atIdx_mem {β : Type} (idx : List Nat) (l : List β) : ∀ x ∈ atIdx idx l, x ∈ l := by
  intro x hx
  obtain ⟨i, _, hi⟩ := List.mem_filterMap.1 hx
  exact List.mem_of_getElem? hi

theorem atIdx_map {β γ : Type} (f : β → γ) (idx : List Nat) (l : List β) : atIdx idx (l.map f) = (atIdx idx l).map f := by
  unfold atIdx
  rw [List.map_filterMap]
  congr 1
  funext i
  simp

theorem atIdx_length {β : Type} (idx : List Nat) (l : List β) (h : ∀ i ∈ idx, i < l.length) : (atIdx idx l).length = idx.length := by
  induction idx with
  | nil => rfl
  | cons i r ih =>
    have hi := h i (by simp)
    have e : l[i]? = some l[i] := List.getElem?_eq_getElem hi
    have := ih fun j hj => h j (by simp [hj])
    simp only [atIdx, List.filterMap_cons, e, List.length_cons] at this ⊢
    rw [this]

theorem maxRunes_spec (ts : List PyText) (a : Nat) : a ≤ ts.foldl (fun a t => max a t.length) a ∧ ∀ t ∈ ts, t.length ≤ ts.foldl (fun a t => max a t.length) a := by
  induction ts generalizing a with
  | nil => simp
  | cons x r ih =>
    obtain ⟨h1, h2⟩ := ih (max a x.length)
    rw [List.foldl_cons]
    refine ⟨by omega, fun t ht => ?_⟩
    rcases List.mem_cons.1 ht with rfl | ht
    · omega
    · exact h2 t ht

theorem maxRunes_lt (ts : List PyText) {B : Nat} (hB : 1 < B) (h : ∀ t ∈ ts, t.length < B) : maxRunes ts < B := by
  unfold maxRunes
  have : ∀ a, a < B → ts.foldl (fun a t => max a t.length) a < B := by
    induction ts with
    | nil => intro a ha; exact ha
    | cons x r ih =>
      intro a ha
      rw [List.foldl_cons]
      refine ih (fun t ht => h t (by simp [ht])) _ ?_
      have := h x (by simp)
      omega
  exact this 1 hB

/-- spec: a text that fits a text page: valid, no zero at either end -/
def ObjV.TextFits : ObjV → Prop
  | .str b => ∃ t, TextOk t b
  | _ => True

/-- narrowing keeps the values -/
theorem narrow_vals (widen : Nat → Nat) (vs : List ObjV) (h : ∀ v ∈ vs, v.TextFits) : ∃ q, narrow vs = .ok q ∧ q.vals widen = .ok vs := by
  by_cases hu : ∃ k ∈ typedKinds, vs ≠ [] ∧ ∀ v ∈ vs, v.kind = k
  · obtain ⟨k, hk, hne, hall⟩ := hu
    have ha := (activeKinds_iff vs k).2 ⟨hne, hall⟩
    rw [narrow, ha]
    cases k with
    | none => simp [typedKinds] at hk
    | time => simp [typedKinds] at hk
    | bool =>
      obtain ⟨l, -, rfl⟩ := exists_list ObjV.bool (fun _ => True) vs (by
        intro v hv
        have := hall v hv
        cases v <;> simp [ObjV.kind] at this ⊢)
      dsimp only
      rw [mapM_map_ok _ asBool id l (fun _ _ => rfl), List.map_id]
      exact ⟨_, rfl, rfl⟩
    | int =>
      obtain ⟨l, -, rfl⟩ := exists_list ObjV.int (fun _ => True) vs (by
        intro v hv
        have := hall v hv
        cases v <;> simp [ObjV.kind] at this ⊢)
      dsimp only
      rw [mapM_map_ok _ asInt id l (fun _ _ => rfl), List.map_id]
      exact ⟨_, rfl, rfl⟩
    | float =>
      obtain ⟨l, -, rfl⟩ := exists_list ObjV.float (fun _ => True) vs (by
        intro v hv
        have := hall v hv
        cases v <;> simp [ObjV.kind] at this ⊢)
      dsimp only
      rw [mapM_map_ok _ asFloat id l (fun _ _ => rfl), List.map_id]
      exact ⟨_, rfl, rfl⟩
    | str =>
      obtain ⟨l, hl, rfl⟩ := exists_list (fun x : PyText × List Nat => ObjV.str x.2) (fun x => TextOk x.1 x.2) vs (by
        intro v hv
        have h1 := hall v hv
        have h2 := h v hv
        cases v <;> simp only [ObjV.kind, ObjV.TextFits, reduceCtorEq] at h1 h2
        obtain ⟨t, h2⟩ := h2
        exact ⟨(t, _), h2, rfl⟩)
      dsimp only
      rw [mapM_map_ok _ asStr (fun x : PyText × List Nat => x.2) l (fun _ _ => rfl)]
      have hd : (l.map fun x => x.2).mapM utf8Decode = .ok (l.map (·.1)) := by
        apply mapM_map_ok
        intro x hx
        obtain ⟨hs, he, -⟩ := hl x hx
        obtain ⟨b, hb, hdec⟩ := utf8_roundtrip x.1 hs
        have : b = x.2 := by rw [hb] at he; exact Except.ok.inj he
        rw [← this, hdec]
      simp only [textPage, Except.bind, hd]
      refine ⟨_, rfl, ?_⟩
      rw [NPage.vals, List.map_map]
      apply mapM_map_ok
      intro x hx
      obtain ⟨-, he, hh, hl', -⟩ := hl x hx
      simp only [Function.comp]
      rw [rowText_pad _ _ hh hl', he]
      rfl
    | date =>
      obtain ⟨l, -, rfl⟩ := exists_list (fun x : Nat × Nat × Nat => ObjV.date x.1 x.2.1 x.2.2) (fun _ => True) vs (by
        intro v hv
        have h1 := hall v hv
        cases v <;> simp only [ObjV.kind, reduceCtorEq] at h1
        exact ⟨(_, _, _), trivial, rfl⟩)
      dsimp only
      rw [mapM_map_ok _ asDate id l (fun _ _ => rfl), List.map_id]
      exact ⟨_, rfl, rfl⟩
    | datetime =>
      obtain ⟨l, -, rfl⟩ := exists_list (fun x : NDT => ObjV.datetime x.y x.m x.d x.h x.mi x.s x.ns) (fun _ => True) vs (by
        intro v hv
        have h1 := hall v hv
        cases v <;> simp only [ObjV.kind, reduceCtorEq] at h1
        rename_i y m d h mi s us
        exact ⟨⟨y, m, d, h, mi, s, us⟩, trivial, rfl⟩)
      dsimp only
      rw [mapM_map_ok _ asDatetime (fun x : NDT => { x with ns := x.ns * 1000 }) l (fun _ _ => rfl)]
      refine ⟨_, rfl, ?_⟩
      rw [NPage.vals, List.map_map]
      congr 1
      apply List.map_congr_left
      intro x _
      simp
  · have hk : ∀ k ∈ typedKinds, activeKinds vs ≠ [k] := fun k hk e => hu ⟨k, hk, (activeKinds_iff vs k).1 e⟩
    refine ⟨.object vs, ?_, rfl⟩
    rw [narrow]
    split
    all_goals first | rfl | (rename_i e; exact absurd e (hk _ (by simp [typedKinds])))

/-- spec: the number of rows -/
def NPage.rows : NPage → Nat
  | .bool l => l.length
  | .int _ l => l.length
  | .float _ l => l.length
  | .str _ l => l.length
  | .date l => l.length
  | .datetime l => l.length
  | .object vs => vs.length

/-- spec: the texts of an object page fit a text page -/
def NPage.TextsFit : NPage → Prop
  | .object vs => ∀ v ∈ vs, v.TextFits
  | _ => True

theorem mapM_at {β γ : Type} (f : β → Except Err γ) (l : List β) (vs : List γ) (h : l.mapM f = .ok vs) :
    ∀ (i : Nat) (x : β), l[i]? = some x → ∃ y, vs[i]? = some y ∧ f x = .ok y := by
  induction l generalizing vs with
  | nil => intro i x hx; simp at hx
  | cons a t ih =>
    rw [List.mapM_cons] at h
    cases ha : f a with
    | error e => rw [ha] at h; exact absurd h (by simp [bind, Except.bind])
    | ok b =>
      rw [ha] at h
      cases ht : t.mapM f with
      | error e => rw [ht] at h; exact absurd h (by simp [bind, Except.bind])
      | ok bs =>
        rw [ht] at h
        have hv : vs = b :: bs := by injection h with h; exact h.symm
        subst hv
        intro i x hx
        cases i with
        | zero => simp at hx; subst hx; exact ⟨b, by simp, ha⟩
        | succ j => simpa using ih bs ht j x (by simpa using hx)

theorem mapM_atIdx {β γ : Type} (f : β → Except Err γ) (l : List β) (vs : List γ) (h : l.mapM f = .ok vs) (idx : List Nat) (hi : ∀ i ∈ idx, i < l.length) :
    (atIdx idx l).mapM f = .ok (atIdx idx vs) := by
  induction idx with
  | nil => rfl
  | cons i r ih =>
    have hlt := hi i (by simp)
    have e : l[i]? = some l[i] := List.getElem?_eq_getElem hlt
    obtain ⟨y, h1, h2⟩ := mapM_at f l vs h i _ e
    have ih' := ih fun j hj => hi j (by simp [hj])
    simp only [atIdx, List.filterMap_cons, e, h1] at ih' ⊢
    rw [List.mapM_cons, h2, ih']
    rfl

/-- the rows taken are the rows of the page, whatever type the new page has -/
theorem C108_rows (widen : Nat → Nat) (idx : List Nat) (p : NPage) (hi : ∀ i ∈ idx, i < p.rows) (ht : p.TextsFit) (vs : List ObjV) (hv : p.vals widen = .ok vs) :
    ∃ q, npageTake idx p = .ok q ∧ q.vals widen = .ok (atIdx idx vs) := by
  cases p with
  | bool l =>
    refine ⟨.bool (atIdx idx l), by rw [npageTake, pickIdx_ok idx l hi]; rfl, ?_⟩
    injection hv with hv; rw [← hv, atIdx_map]; rfl
  | int size l =>
    refine ⟨.int size (atIdx idx l), by rw [npageTake, pickIdx_ok idx l hi]; rfl, ?_⟩
    injection hv with hv; rw [← hv, atIdx_map]; rfl
  | float size l =>
    refine ⟨.float size (atIdx idx l), by rw [npageTake, pickIdx_ok idx l hi]; rfl, ?_⟩
    injection hv with hv; rw [← hv, atIdx_map]; rfl
  | date l =>
    refine ⟨.date (atIdx idx l), by rw [npageTake, pickIdx_ok idx l hi]; rfl, ?_⟩
    injection hv with hv; rw [← hv, atIdx_map]; rfl
  | datetime l =>
    refine ⟨.datetime (atIdx idx l), by rw [npageTake, pickIdx_ok idx l hi]; rfl, ?_⟩
    injection hv with hv; rw [← hv, atIdx_map]; rfl
  | object l =>
    injection hv with hv
    subst hv
    rw [npageTake, pickIdx_ok idx l hi]
    exact narrow_vals widen _ fun v hv => ht v (atIdx_mem idx l v hv)
  | str size l =>
    refine ⟨.str size (atIdx idx l), by rw [npageTake, pickIdx_ok idx l hi]; rfl, ?_⟩
    rw [NPage.vals] at hv ⊢
    exact mapM_atIdx _ l vs hv idx hi

/-- taking rows keeps a page valid -/
theorem narrow_valid (vs : List ObjV) (hlen : vs.length < 2 ^ 31) (h : ∀ v ∈ vs, v.TypedOk ∧ v.Fits ∧ v.Plain) : ∀ q, narrow vs = .ok q → q.Valid ∧ q.Plain := by
  intro q hq
  by_cases hu : ∃ k ∈ typedKinds, vs ≠ [] ∧ ∀ v ∈ vs, v.kind = k
  · obtain ⟨k, hk, hne, hall⟩ := hu
    have ha := (activeKinds_iff vs k).2 ⟨hne, hall⟩
    rw [narrow, ha] at hq
    cases k with
    | none => simp [typedKinds] at hk
    | time => simp [typedKinds] at hk
    | bool =>
      obtain ⟨l, -, rfl⟩ := exists_list ObjV.bool (fun _ => True) vs (by
        intro v hv
        have := hall v hv
        cases v <;> simp [ObjV.kind] at this ⊢)
      dsimp only at hq
      rw [mapM_map_ok _ asBool id l (fun _ _ => rfl), List.map_id] at hq
      injection hq with hq
      subst hq
      exact ⟨by simpa [NPage.Valid] using hlen, trivial⟩
    | int =>
      obtain ⟨l, hl, rfl⟩ := exists_list ObjV.int (fun z => -2 ^ 63 ≤ z ∧ z < 2 ^ 63) vs (by
        intro v hv
        have := hall v hv
        have := (h v hv).1
        cases v <;> simp [ObjV.kind, ObjV.TypedOk] at *
        assumption)
      dsimp only at hq
      rw [mapM_map_ok _ asInt id l (fun _ _ => rfl), List.map_id] at hq
      injection hq with hq
      subst hq
      refine ⟨⟨by simp, by simpa using hlen, fun z hz => ?_⟩, trivial⟩
      have := hl z hz
      norm_num at this ⊢
      omega
    | float =>
      obtain ⟨l, hl, rfl⟩ := exists_list ObjV.float (fun b => b < 2 ^ 64) vs (by
        intro v hv
        have := hall v hv
        have := (h v hv).1
        cases v <;> simp [ObjV.kind, ObjV.TypedOk] at *
        assumption)
      dsimp only at hq
      rw [mapM_map_ok _ asFloat id l (fun _ _ => rfl), List.map_id] at hq
      injection hq with hq
      subst hq
      refine ⟨⟨by simp, by simpa using hlen, fun z hz => ?_⟩, trivial⟩
      have := hl z hz
      norm_num at this ⊢
      omega
    | str =>
      obtain ⟨l, hl, rfl⟩ := exists_list (fun x : PyText × List Nat => ObjV.str x.2) (fun x => TextOk x.1 x.2) vs (by
        intro v hv
        have h1 := hall v hv
        have h2 := (h v hv).1
        cases v <;> simp only [ObjV.kind, ObjV.TypedOk, reduceCtorEq] at h1 h2
        obtain ⟨t, h2⟩ := h2
        exact ⟨(t, _), h2, rfl⟩)
      dsimp only at hq
      rw [mapM_map_ok _ asStr (fun x : PyText × List Nat => x.2) l (fun _ _ => rfl)] at hq
      have hd : (l.map fun x => x.2).mapM utf8Decode = .ok (l.map (·.1)) := by
        apply mapM_map_ok
        intro x hx
        obtain ⟨hs, he, -⟩ := hl x hx
        obtain ⟨b, hb, hdec⟩ := utf8_roundtrip x.1 hs
        have : b = x.2 := by rw [hb] at he; exact Except.ok.inj he
        rw [← this, hdec]
      simp only [textPage, Except.bind, hd] at hq
      injection hq with hq
      subst hq
      obtain ⟨g1, g2⟩ := maxRunes_spec (l.map (·.1)) 1
      refine ⟨⟨g1, maxRunes_lt _ (by norm_num) ?_, by simpa using hlen, ?_⟩, trivial⟩
      · intro t htm
        obtain ⟨x, hx, rfl⟩ := List.mem_map.1 htm
        have h1 := utf8Encode_length x.1 x.2 (hl x hx).2.1
        have h2 := (hl x hx).2.2.2.2
        omega
      · intro row hrow
        obtain ⟨t, htm, rfl⟩ := List.mem_map.1 hrow
        have h2 := g2 t htm
        obtain ⟨x, hx, rfl⟩ := List.mem_map.1 htm
        refine ⟨?_, ?_⟩
        · simp only [List.length_append, List.length_replicate]
          unfold maxRunes
          omega
        · intro c hc
          rcases List.mem_append.1 hc with hc | hc
          · exact (hl x hx).1 c hc
          · rw [(List.mem_replicate.1 hc).2]; unfold Scalar; norm_num
    | date =>
      obtain ⟨l, hl, rfl⟩ := exists_list (fun x : Nat × Nat × Nat => ObjV.date x.1 x.2.1 x.2.2) DateOk vs (by
        intro v hv
        have h1 := hall v hv
        have h2 := (h v hv).1
        cases v <;> simp only [ObjV.kind, ObjV.TypedOk, reduceCtorEq] at h1 h2
        exact ⟨(_, _, _), h2, rfl⟩)
      dsimp only at hq
      rw [mapM_map_ok _ asDate id l (fun _ _ => rfl), List.map_id] at hq
      injection hq with hq
      subst hq
      exact ⟨⟨by simpa using hlen, hl⟩, trivial⟩
    | datetime =>
      obtain ⟨l, hl, rfl⟩ := exists_list (fun x : NDT => ObjV.datetime x.y x.m x.d x.h x.mi x.s 0) (fun x => x.Ok ∧ x.ns = 0) vs (by
        intro v hv
        have h1 := hall v hv
        have h2 := (h v hv).1
        cases v <;> simp only [ObjV.kind, ObjV.TypedOk, reduceCtorEq] at h1 h2
        obtain ⟨h2, rfl⟩ := h2
        exact ⟨_, ⟨h2, rfl⟩, rfl⟩)
      dsimp only at hq
      rw [mapM_map_ok _ _ id l (fun x hx => by
        have := (hl x hx).2
        obtain ⟨y, m, d, h, mi, s, ns⟩ := x
        dsimp only at this
        subst this
        rfl), List.map_id] at hq
      injection hq with hq
      subst hq
      exact ⟨⟨by simpa using hlen, fun x hx => (hl x hx).1⟩, fun x hx => by rw [(hl x hx).2]; norm_num⟩
  · have hk : ∀ k ∈ typedKinds, activeKinds vs ≠ [k] := fun k hk e => hu ⟨k, hk, (activeKinds_iff vs k).1 e⟩
    have : narrow vs = .ok (.object vs) := by
      rw [narrow]
      split
      all_goals first | rfl | (rename_i e; exact absurd e (hk _ (by simp [typedKinds])))
    rw [this] at hq
    injection hq with hq
    subst hq
    refine ⟨⟨hlen, fun v hv => (h v hv).2.1, fun z hz => (h _ hz).1, fun b hb => (h _ hb).1⟩, ?_⟩
    exact ⟨fun hx => absurd hx hu, fun _ v hv => (h v hv).2⟩

/-- the pages whose rows survive: as in C70, each object alone or among others -/
def NPage.RowsPlain : NPage → Prop
  | .datetime l => ∀ x ∈ l, x.ns < 1000
  | .object vs => ∀ v ∈ vs, v.TypedOk ∧ v.Fits ∧ v.Plain
  | _ => True

/-- the full claim: rows taken out of a page, saved and read again are the rows of the page -/
def C108_statement : Prop := ∀ (widen : Nat → Nat) (idx : List Nat) (p : NPage) (vs : List ObjV), p.Valid → p.vals widen = .ok vs → (∀ i ∈ idx, i < p.rows) → idx.length < 2 ^ 31 →
  ∃ q f r, npageTake idx p = .ok q ∧ npySave q = .ok f ∧ npyRead f = .ok r ∧ r.vals widen = .ok (atIdx idx vs)

/-- **C108**, partial: true of pages of booleans, numbers, texts and dates, of datetimes without fractions of a second, and of objects that survive both alone and among others. -/
theorem C108_partial (widen : Nat → Nat) (idx : List Nat) (p : NPage) (vs : List ObjV) (hv : p.Valid) (hp : p.RowsPlain) (hvs : p.vals widen = .ok vs) (hi : ∀ i ∈ idx, i < p.rows)
    (hn : idx.length < 2 ^ 31) : ∃ q f r, npageTake idx p = .ok q ∧ npySave q = .ok f ∧ npyRead f = .ok r ∧ r.vals widen = .ok (atIdx idx vs) := by
  have ht : p.TextsFit := by
    cases p with
    | object l =>
      intro v hvl
      have := (hp v hvl).1
      cases v <;> simp only [ObjV.TextFits, ObjV.TypedOk] at this ⊢
      exact this
    | _ => trivial
  obtain ⟨q, h1, h2⟩ := C108_rows widen idx p hi ht vs hvs
  have hq : q.Valid ∧ q.Plain := by
    have hl := fun {β : Type} (l : List β) (h : ∀ i ∈ idx, i < l.length) => (atIdx_length idx l h).trans_lt hn
    cases p with
    | bool l =>
      rw [npageTake, pickIdx_ok idx l hi] at h1; injection h1 with h1; subst h1
      exact ⟨hl l hi, trivial⟩
    | int size l =>
      rw [npageTake, pickIdx_ok idx l hi] at h1; injection h1 with h1; subst h1
      exact ⟨⟨hv.1, hl l hi, fun z hz => hv.2.2 z (atIdx_mem idx l z hz)⟩, trivial⟩
    | float size l =>
      rw [npageTake, pickIdx_ok idx l hi] at h1; injection h1 with h1; subst h1
      exact ⟨⟨hv.1, hl l hi, fun z hz => hv.2.2 z (atIdx_mem idx l z hz)⟩, trivial⟩
    | str size l =>
      rw [npageTake, pickIdx_ok idx l hi] at h1; injection h1 with h1; subst h1
      exact ⟨⟨hv.1, hv.2.1, hl l hi, fun z hz => hv.2.2.2 z (atIdx_mem idx l z hz)⟩, trivial⟩
    | date l =>
      rw [npageTake, pickIdx_ok idx l hi] at h1; injection h1 with h1; subst h1
      exact ⟨⟨hl l hi, fun z hz => hv.2 z (atIdx_mem idx l z hz)⟩, trivial⟩
    | datetime l =>
      rw [npageTake, pickIdx_ok idx l hi] at h1; injection h1 with h1; subst h1
      exact ⟨⟨hl l hi, fun z hz => hv.2 z (atIdx_mem idx l z hz)⟩, fun z hz => hp z (atIdx_mem idx l z hz)⟩
    | object l =>
      rw [npageTake, pickIdx_ok idx l hi] at h1
      exact narrow_valid _ (hl l hi) (fun v hv => hp v (atIdx_mem idx l v hv)) q h1
  obtain ⟨f, r, h3, h4, h5⟩ := C70_partial widen q hq.1 hq.2
  exact ⟨q, f, r, h1, h3, h4, h5.trans h2⟩

/-- rows of a mixed page that are all datetimes with fractions of a second are saved as datetimes and come back wrong -/
theorem C108_fails : ¬ C108_statement := by
  intro h
  have hok : NDT.Ok ⟨2024, 2, 29, 12, 30, 0, 100000000⟩ := by simp [NDT.Ok, DateOk, ValidDate, monthLen, Leap]
  obtain ⟨q, f, r, h1, h2, h3, h4⟩ := h id [1] (.object [.none, .datetime 2024 2 29 12 30 0 100000]) [.none, .datetime 2024 2 29 12 30 0 100000]
    (by refine ⟨by decide, ?_, by simp, by simp⟩; intro v hv; simp at hv; rcases hv with rfl | rfl <;> simp [ObjV.Fits]) rfl (by simp [NPage.rows]) (by decide)
  have hq : npageTake [1] (.object [.none, .datetime 2024 2 29 12 30 0 100000]) = .ok (.datetime [⟨2024, 2, 29, 12, 30, 0, 100000000⟩]) := by rfl
  rw [hq] at h1
  injection h1 with h1
  subst h1
  have := C70_us_fails id
  rw [h2] at this
  dsimp only [Except.bind] at this
  rw [h3] at this
  dsimp only at this
  rw [h4] at this
  exact absurd this (by decide)

/-- a text that ends in a zero loses it if the rows taken are all texts -/
theorem C108_text_fails (widen : Nat → Nat) : (npageTake [0] (.object [.str [97, 0], .none])).bind (NPage.vals widen) = .ok [.str [97]] := by rfl

/-- two rows of a mixed page, given as integers -/
example : ∃ q f r, npageTake [2, 0] (.object [.int 5, .none, .int (-7)]) = .ok q ∧ npySave q = .ok f ∧ npyRead f = .ok r ∧ r.vals id = .ok [.int (-7), .int 5] :=
  C108_partial id [2, 0] (.object [.int 5, .none, .int (-7)]) _
    (by refine ⟨by decide, ?_, ?_, by simp⟩
        · intro v hv; simp at hv; rcases hv with rfl | rfl | rfl <;> simp [ObjV.Fits]
        · intro z hz; simp at hz; rcases hz with rfl | rfl <;> norm_num)
    (by intro v hv; simp at hv; rcases hv with rfl | rfl | rfl <;> simp [ObjV.Fits, ObjV.TypedOk, ObjV.Plain]) rfl (by simp [NPage.rows]) (by decide)

end Tablite
