import Verif.Props.TypedCol
import Verif.Props.StrideExact
/-!
# C80: exactly which values a strided assignment stores
-/

namespace Tablite

variable {F : Type}

/-- different values written to the same positions give different lists -/
theorem setMany_inj {α} : ∀ (is : List Int) (l m vs ws : List α), is.Nodup → (∀ i ∈ is, 0 ≤ i ∧ i < l.length) → l.length = m.length →
    vs.length = is.length → ws.length = is.length → setMany l is vs = setMany m is ws → vs = ws
  | [], _, _, vs, ws, _, _, _, h1, h2, _ => by
    rw [List.length_eq_zero_iff.1 h1, List.length_eq_zero_iff.1 h2]
  | i :: is, l, m, [], _, _, _, _, h1, _, _ => by simp at h1
  | i :: is, l, m, _ :: _, [], _, _, _, _, h2, _ => by simp at h2
  | i :: is, l, m, v :: vs, w :: ws, hd, hn, hlm, h1, h2, h => by
    rw [setMany, setMany] at h
    have hni := List.nodup_cons.1 hd
    have hi := hn i (by simp)
    have e1 := setMany_other (l.set i.toNat v) is vs i.toNat (by rw [Int.toNat_of_nonneg hi.1]; exact hni.1) (fun j hj => (hn j (List.mem_cons_of_mem _ hj)).1)
    have e2 := setMany_other (m.set i.toNat w) is ws i.toNat (by rw [Int.toNat_of_nonneg hi.1]; exact hni.1) (fun j hj => (hn j (List.mem_cons_of_mem _ hj)).1)
    rw [h, e2, List.getElem?_set_self (by omega), List.getElem?_set_self (by omega)] at e1
    rw [Option.some.inj e1, setMany_inj is (l.set i.toNat v) (m.set i.toNat w) vs ws hni.2 (by
      intro j hj; rw [List.length_set]; exact hn j (List.mem_cons_of_mem _ hj)) (by simpa using hlm) (by simpa using h1) (by simpa using h2) h]

/-- the values written are what the dtype of the array makes of them -/
theorem tSetUpdateWrite_cast (R : NpRt F) (so : Option Int) : ∀ (seq : List Int) (vs ws : List (CV F)) (a : Arr F), vs.mapM (castInto R a.dt) = .ok ws →
    (tSetUpdateWrite R so seq vs a).map Arr.data = setUpdateWrite so seq ws a.data
  | [], vs, ws, _, _ => by cases vs <;> cases ws <;> rfl
  | i :: is, [], ws, a, h => by
    cases h
    rfl
  | i :: is, v :: vs, ws, a, h => by
    rw [List.mapM_cons] at h
    cases hv : castInto R a.dt v with
    | error e => rw [hv] at h; cases h
    | ok w =>
      rw [hv] at h
      cases hr : vs.mapM (castInto R a.dt) with
      | error e => rw [hr] at h; cases h
      | ok r =>
        rw [hr] at h
        cases h
        cases so with
        | none => rfl
        | some s =>
          simp only [tSetUpdateWrite, setUpdateWrite, tNpSet]
          rw [hv]
          dsimp only [bind, Except.bind]
          cases hx : npSet a.data (i - s) w with
          | error e => rfl
          | ok l => exact tSetUpdateWrite_cast R (some s) is vs r ⟨a.dt, l⟩ hr

/-- a value the dtype refuses makes the assignment raise -/
theorem tSetUpdateWrite_cast_ok (R : NpRt F) (so : Option Int) : ∀ (seq : List Int) (vs : List (CV F)) (a b : Arr F), vs.length ≤ seq.length →
    tSetUpdateWrite R so seq vs a = .ok b → ∃ ws, vs.mapM (castInto R a.dt) = .ok ws
  | _, [], _, _, _, _ => ⟨[], rfl⟩
  | [], _ :: _, _, _, h, _ => absurd h (by simp)
  | i :: is, v :: vs, a, b, hl, h => by
    cases so with
    | none => cases h
    | some s =>
      simp only [tSetUpdateWrite, tNpSet] at h
      cases hv : castInto R a.dt v with
      | error e => rw [hv] at h; cases h
      | ok w =>
        rw [hv] at h
        dsimp only [bind, Except.bind] at h
        cases hx : npSet a.data (i - s) w with
        | error e => rw [hx] at h; cases h
        | ok l =>
          rw [hx] at h
          obtain ⟨ws, hws⟩ := tSetUpdateWrite_cast_ok R (some s) is vs ⟨a.dt, l⟩ b (by simpa using hl) h
          exact ⟨w :: ws, by rw [List.mapM_cons, hv]; dsimp only [bind, Except.bind]; rw [show vs.mapM (castInto R a.dt) = .ok ws from hws]; rfl⟩

theorem npUnify_same (as : List (Arr F)) (h : as ≠ []) (d : Dt) (hd : ∀ a ∈ as, a.dt = d) : npUnify as = .ok ⟨d, (as.map Arr.data).flatten⟩ := by
  cases as with
  | nil => exact absurd rfl h
  | cons a r =>
    rw [npUnify, if_pos (by
      rw [List.all_eq_true]
      intro b hb
      rw [decide_eq_true_iff, hd b (List.mem_cons_of_mem _ hb), hd a (by simp)]), hd a (by simp)]

/-- `_setitem_update` on a column of one dtype writes what the dtype makes of the values, and if it writes them the dtype takes them all -/
theorem tSetUpdate_cast (R : NpRt F) (ps : Nat) (c : TCol F) (s : PySlice) (a : Arr F) (d : Dt) (hd : ∀ p ∈ c, p.dt = d) :
    (∀ ws, a.data.mapM (castInto R d) = .ok ws → a.data.length = ws.length → (tSetUpdate R ps c s a).map TCol.pages = setUpdate ps c.pages s ws) ∧
    (∀ b, tSetUpdate R ps c s a = .ok b → ∃ ws, a.data.mapM (castInto R d) = .ok ws) := by
  unfold tSetUpdate setUpdate
  split
  · exact ⟨fun _ _ _ => rfl, fun _ h => by cases h⟩
  · generalize s.indices (colLen c.pages) = x
    obtain ⟨ks, ke, k⟩ := x
    dsimp only
    have hl := tSetUpdateLoop_pages ks ke 0 c {}
    rw [show (({} : TUpdAcc F)).vals = {} from rfl] at hl
    rw [← hl]
    have hmem := tSetUpdateLoop_mem ks ke 0 c {} (fun p => p.dt = d) (by intro a ha; cases ha) hd
    generalize tSetUpdateLoop ks ke 0 c {} = acc at hmem
    by_cases hlen : a.data.length > (rangeList ks ke k).length
    · rw [if_pos hlen]
      exact ⟨fun ws _ he => by rw [if_pos (by omega)]; rfl, fun _ h => by cases h⟩
    · rw [if_neg hlen]
      by_cases hc : acc.changed = []
      · rw [hc]
        refine ⟨fun ws _ he => ?_, fun b h => by cases h⟩
        rw [if_neg (by omega)]
        show _ = if acc.changed.pages = [] then _ else _
        rw [if_pos (by rw [hc]; rfl)]
        rfl
      · rw [npUnify_same acc.changed hc d hmem]
        dsimp only [bind, Except.bind]
        constructor
        · intro ws hws he
          rw [if_neg (by omega)]
          show _ = if acc.changed.pages = [] then _ else _
          rw [if_neg (by simpa [TCol.pages] using hc)]
          have hw := tSetUpdateWrite_cast R acc.startsOn (rangeList ks ke k) a.data ws ⟨d, (acc.changed.map Arr.data).flatten⟩ hws
          rw [show acc.vals.startsOn = acc.startsOn from rfl, show acc.vals.changed.flatten = (acc.changed.map Arr.data).flatten from rfl, ← hw]
          cases tSetUpdateWrite R acc.startsOn (rangeList ks ke k) a.data ⟨d, (acc.changed.map Arr.data).flatten⟩ with
          | error e => rfl
          | ok n =>
            simp only [Except.map]
            rw [tcol_pages_append, tcol_pages_append, tPaginate_pages]
            rfl
        · intro b hb
          cases hw : tSetUpdateWrite R acc.startsOn (rangeList ks ke k) a.data ⟨d, (acc.changed.map Arr.data).flatten⟩ with
          | error e => rw [hw] at hb; cases hb
          | ok n => exact tSetUpdateWrite_cast_ok R _ _ _ _ _ (by omega) hw

theorem mapM_cast_length (R : NpRt F) (d : Dt) : ∀ (l ws : List (CV F)), l.mapM (castInto R d) = .ok ws → l.length = ws.length
  | [], ws, h => by cases h; rfl
  | v :: l, ws, h => by
    rw [List.mapM_cons] at h
    cases hv : castInto R d v with
    | error e => rw [hv] at h; cases h
    | ok w =>
      rw [hv] at h
      cases hr : l.mapM (castInto R d) with
      | error e => rw [hr] at h; cases h
      | ok r => rw [hr] at h; cases h; simp [mapM_cast_length R d l r hr]

theorem mapM_cast_self (R : NpRt F) (d : Dt) : ∀ l : List (CV F), l.mapM (castInto R d) = .ok l ↔ ∀ v ∈ l, castInto R d v = .ok v
  | [] => by simp; rfl
  | v :: l => by
    rw [List.mapM_cons]
    have ih := mapM_cast_self R d l
    constructor
    · intro h
      cases hv : castInto R d v with
      | error e => rw [hv] at h; cases h
      | ok w =>
        rw [hv] at h
        cases hr : l.mapM (castInto R d) with
        | error e => rw [hr] at h; cases h
        | ok r =>
          rw [hr] at h
          have he : w :: r = v :: l := Except.ok.inj h
          obtain ⟨rfl, rfl⟩ := List.cons.inj he
          intro u hu
          rcases List.mem_cons.1 hu with rfl | hu
          · exact hv
          · exact ih.1 hr u hu
    · intro h
      rw [h v (by simp), ih.2 (fun u hu => h u (List.mem_cons_of_mem _ hu))]
      rfl

/-- **C80**, what a strided assignment does: on a column of one dtype the values stored are what the dtype makes of the values given. -/
theorem C80_effect (R : NpRt F) (hw : ∀ us, -2 ^ 63 ≤ R.tdWrap us ∧ R.tdWrap us < 2 ^ 63) (ps : Nat) (hps : 0 < ps) (c : TCol F) (d : Dt) (hd : ∀ p ∈ c, p.dt = d)
    (s : PySlice) (l ws : List (CV F)) (hl : KeptList l) (h0 : s.step ≠ some 0) (h1 : s.step ≠ none) (h2 : s.step ≠ some 1)
    (hok : StrideOk c.pages (s.indices (colLen c.pages)).1 (s.indices (colLen c.pages)).2.1)
    (hlen : l.length = (rangeList (s.indices (colLen c.pages)).1 (s.indices (colLen c.pages)).2.1 s.stepOr1).length)
    (hws : l.mapM (castInto R d) = .ok ws) :
    (tSetSlice R ps c s l).map (fun c => colIter c.pages) = pySetStride (colIter c.pages) s ws := by
  have hdat := (C79_exact R hw l).2 hl
  have hlw := mapM_cast_length R d l ws hws
  rw [map_map_pages, tSetSlice, if_neg (fun h => h.elim h1 h2), (tSetUpdate_cast R ps c s (listToNp R l) d hd).1 ws (by rw [hdat]; exact hws) (by rw [hdat]; exact hlw)]
  exact (C06_stride_partial ps hps c.pages s ws h0 hok (by omega)).2 (by omega)

/-- **C80**, exactly when: on a column of one dtype a strided assignment stores the values given if and only if the dtype keeps each of them. -/
theorem C80_exact (R : NpRt F) (hw : ∀ us, -2 ^ 63 ≤ R.tdWrap us ∧ R.tdWrap us < 2 ^ 63) (ps : Nat) (hps : 0 < ps) (c : TCol F) (d : Dt) (hd : ∀ p ∈ c, p.dt = d)
    (s : PySlice) (l : List (CV F)) (hl : KeptList l) (h0 : s.step ≠ some 0) (h1 : s.step ≠ none) (h2 : s.step ≠ some 1)
    (hok : StrideOk c.pages (s.indices (colLen c.pages)).1 (s.indices (colLen c.pages)).2.1)
    (hlen : l.length = (rangeList (s.indices (colLen c.pages)).1 (s.indices (colLen c.pages)).2.1 s.stepOr1).length) :
    (tSetSlice R ps c s l).map (fun c => colIter c.pages) = pySetStride (colIter c.pages) s l ↔ ∀ v ∈ l, castInto R d v = .ok v := by
  rw [← mapM_cast_self]
  constructor
  · intro h
    have hp : ∀ v : List (CV F), v.length = l.length → pySetStride (colIter c.pages) s v =
        .ok (setMany (colIter c.pages) (rangeList (s.indices (colLen c.pages)).1 (s.indices (colLen c.pages)).2.1 s.stepOr1) v) := by
      intro v hv
      unfold pySetStride
      rw [colIter_eq, ← colLen_eq]
      have hstep : (s.indices (colLen c.pages)).2.2 = s.stepOr1 := rfl
      dsimp only
      rw [hstep, if_pos (hv.trans hlen)]
    have hdat := (C79_exact R hw l).2 hl
    have hres := h
    rw [hp l rfl] at h
    cases hb : tSetSlice R ps c s l with
    | error e => rw [hb] at h; cases h
    | ok b =>
      rw [tSetSlice, if_neg (fun h => h.elim h1 h2)] at hb
      obtain ⟨ws, hws⟩ := (tSetUpdate_cast R ps c s (listToNp R l) d hd).2 b hb
      rw [hdat] at hws
      have hlw := mapM_cast_length R d l ws hws
      rw [C80_effect R hw ps hps c d hd s l ws hl h0 h1 h2 hok hlen hws, hp ws hlw.symm, hp l rfl] at hres
      have hk : s.stepOr1 ≠ 0 := by
        intro h
        apply h0
        unfold PySlice.stepOr1 at h
        cases hh : s.step with
        | none => exact absurd hh h1
        | some k => simp [hh] at h; simp [h]
      have hpos := indices_pos s (colLen c.pages)
      have hneg := indices_neg s (colLen c.pages)
      rw [hws, setMany_inj _ _ _ ws l (rangeList_distinct hk) (by
        intro i hi
        rw [colIter_eq, ← colLen_eq]
        rcases rangeList_bounds hk hi with ⟨h0, h1, h2⟩ | ⟨h0, h1, h2⟩
        · have := hpos h0; omega
        · have := hneg h0; omega) rfl (by omega) hlen (Except.ok.inj hres)]
  · intro h
    exact C80_effect R hw ps hps c d hd s l l hl h0 h1 h2 hok hlen h

theorem dropNuls_length {α} [DecidableEq α] (nul : α) (s : List α) : (dropNuls nul s).length ≤ s.length := by
  unfold dropNuls
  have := (List.dropWhile_sublist (fun x => decide (x = nul)) (l := s.reverse)).length_le
  simpa using this

/-- C80: which values a dtype keeps, if numpy gives values of the type of the dtype (`hR`): those that fit and survive, and all of them in an array of objects -/
theorem C80_kept (R : NpRt F) (hw : ∀ us, -2 ^ 63 ≤ R.tdWrap us ∧ R.tdWrap us < 2 ^ 63) (hR : ∀ d v, d ≠ .uint64 → R.cast d v ≠ .ok v) (d : Dt) (hu : d ≠ .uint64) (v : CV F) :
    castInto R d v = .ok v ↔ d = .obj ∨ (Fits d v ∧ Keepable v) := by
  constructor
  · intro h
    by_cases ho : d = .obj
    · exact .inl ho
    right
    have hs := stored_eq R hw v
    cases d <;> cases v <;> first
      | exact absurd rfl ho
      | exact absurd rfl hu
      | exact absurd h (hR _ _ (by simp))
      | (simp only [castInto] at h; exact ⟨trivial, trivial⟩)
      | skip
    case int64.bool => exact absurd h (by simp [castInto])
    case int64.int n =>
      simp only [castInto] at h
      split at h
      · rename_i hi
        exact ⟨(isI64_range n).1 hi, trivial⟩
      · cases h
    case int64.float x =>
      simp only [castInto] at h
      cases hx : R.trunc x with
      | error e => rw [hx] at h; cases h
      | ok z => rw [hx] at h; cases h
    case float64.int => exact absurd h (by simp [castInto])
    case str.str w t =>
      simp only [castInto, stored, Except.ok.injEq, CV.str.injEq] at h
      have hl := dropNuls_length (Char.ofNat 0) (t.take w)
      rw [h, List.length_take] at hl
      refine ⟨show t.length ≤ w by omega, hs.1 ?_⟩
      rw [List.take_of_length_le (by omega)] at h
      rw [stored, h]
    case bytes.bytes w t =>
      simp only [castInto, stored, Except.ok.injEq, CV.bytes.injEq] at h
      have hl := dropNuls_length 0 (t.take w)
      rw [h, List.length_take] at hl
      refine ⟨show t.length ≤ w by omega, hs.1 ?_⟩
      rw [List.take_of_length_le (by omega)] at h
      rw [stored, h]
    case dtUs.datetime =>
      simp only [castInto, Except.ok.injEq] at h
      exact ⟨trivial, hs.1 h⟩
    case tdUs.timedelta =>
      simp only [castInto, Except.ok.injEq] at h
      exact ⟨trivial, hs.1 h⟩
  · rintro (rfl | ⟨h, hk⟩)
    · cases v <;> rfl
    · exact castInto_fits R hw d v h (.inr hk)

/-- in a column of integers, `c[::2] = [1, 2]` stores the values given and `c[::2] = [1.5, 2.5]` does not -/
example : (tSetSlice exactNp 10 (tColumn exactNp 10 [.int 7, .int 8, .int 9]) { step := some 2 } [.int 1, .int 2]).map (fun c => colIter c.pages) =
      pySetStride [.int 7, .int 8, .int 9] { step := some 2 } [.int 1, .int 2] ∧
    (tSetSlice exactNp 10 (tColumn exactNp 10 [.int 7, .int 8, .int 9]) { step := some 2 } [.float (3 / 2), .float (5 / 2)]).map (fun c => colIter c.pages) ≠
      pySetStride [.int 7, .int 8, .int 9] { step := some 2 } [.float (3 / 2), .float (5 / 2)] := by
  have hok : StrideOk (tColumn exactNp 10 [.int 7, .int 8, .int 9]).pages 0 3 :=
    .last [] [.int 7, .int 8, .int 9] (by decide) (by decide) (by decide) (by decide)
  have hdt : ∀ p ∈ tColumn exactNp 10 [.int 7, .int 8, .int 9], p.dt = .int64 := by decide +kernel
  have hw : ∀ us, -2 ^ 63 ≤ exactNp.tdWrap us ∧ exactNp.tdWrap us < 2 ^ 63 := fun _ => by show -2 ^ 63 ≤ (0 : Int) ∧ (0 : Int) < 2 ^ 63; decide
  constructor
  · exact (C80_exact exactNp hw 10 (by decide) _ .int64 hdt { step := some 2 } [.int 1, .int 2] (.inr ⟨by simp [Keepable], .inl (by simp)⟩) (by decide) (by decide) (by decide)
      hok (by decide)).2 (by decide +kernel)
  · intro h
    have := (C80_exact exactNp hw 10 (by decide) _ .int64 hdt { step := some 2 } [.float (3 / 2), .float (5 / 2)] (.inr ⟨by simp [Keepable], .inl (by simp)⟩) (by decide) (by decide) (by decide)
      hok (by decide)).1 h
    revert this
    decide +kernel

end Tablite
