import Verif.Props.StatsExact
import Verif.Props.ColumnStats

/-! # When the statistics of a column depend on the order of its values (C126) -/

namespace Tablite

/-- the type a call of `statistics` settled on: the one it reports, or the one whose method raised -/
def settledKind : Except Err (Option SumOut) → Option SKind
  | .ok (some o) => some o.summaryType
  | .error .attribute => some .timedelta
  | .error .type => some .other
  | _ => none

theorem SameStats.kind {x y : Except Err (Option SumOut)} (h : SameStats x y) : settledKind x = settledKind y := by
  unfold SameStats at h
  split at h
  · show some _ = some _
    rw [h.2.2.1]
  · rw [h]

theorem pageCounts_single {α : Type} (srt : List α → Option (List α)) (hsrt : ∀ l s, srt l = some s → s.Perm l) (same : α → α → Bool) (v : α) :
    pageCounts srt same [v] = [(v, 1)] := by
  unfold pageCounts
  cases h : srt [v] with
  | none => rfl
  | some s =>
    rw [List.perm_singleton.1 (hsrt _ _ h)]
    rfl

/-- the histogram of a column whose first page is one value begins with this value -/
theorem histogram_first {α : Type} [DecidableEq α] (srt : List α → Option (List α)) (hsrt : ∀ l s, srt l = some s → s.Perm l) (same : α → α → Bool) (v : α) (rest : List α) :
    ∃ n h, histogram srt same [[v], rest] = (v, n) :: h := by
  unfold histogram
  rw [dGroup_eq, List.flatMap_cons, pageCounts_single srt hsrt, List.singleton_append, List.map_cons, firstOccs, List.map_cons]
  exact ⟨_, _, rfl⟩

theorem two_pages {α : Type} [DecidableEq α] {l : List α} {v : α} (hv : v ∈ l) : (colIter [[v], l.erase v]).Perm l := by
  have : colIter [[v], l.erase v] = v :: l.erase v := by simp [colIter]
  rw [this]
  exact (List.perm_cons_erase hv).symm

/-- with a value of a predominant type first, the statistics are those of this type -/
theorem first_kind (srt : List StVal → Option (List StVal)) (hsrt : ∀ l s, srt l = some s → s.Perm l) (same : StVal → StVal → Bool) (hf : ∀ p, Faithful same p)
    (l : List StVal) (v : StVal) (hv : v ∈ l) (hmax : ∀ j, kindCount l j ≤ kindCount l v.kind) :
    dominant StVal.kind (histogram srt same [[v], l.erase v]) =
      some (v.kind, (histogram srt same [[v], l.erase v]).filter fun e => e.1.kind = v.kind) := by
  have H := histogram_counts srt hsrt same [[v], l.erase v] fun p _ => hf p
  obtain ⟨n, h, hh⟩ := histogram_first srt hsrt same v (l.erase v)
  have hp := two_pages hv
  generalize histogram srt same [[v], l.erase v] = vc at H hh
  subst hh
  obtain ⟨T, hT, -, hTm, pre, post, hocc, hpre⟩ := C66_dominant StVal.kind ((v, n) :: h) ⟨(v, n), by simp, H.pos (v, n) (by simp)⟩
  have htot : ∀ k, typeTotal StVal.kind ((v, n) :: h) k = kindCount l k := fun k => by
    rw [typeTotal_counts H]
    exact hp.countP_eq _
  suffices e : T = v.kind by rw [← e]; exact hT
  rw [List.map_cons, firstOccs] at hocc
  cases pre with
  | nil =>
    rw [List.nil_append, List.cons.injEq] at hocc
    exact hocc.1.symm
  | cons a pre =>
    rw [List.cons_append, List.cons.injEq] at hocc
    have := hpre a (by simp)
    rw [← hocc.1, htot, htot] at this
    exact absurd (hmax T) (Nat.not_le.2 this)

theorem first_settled (clk : SClock) (srt : List StVal → Option (List StVal)) (hsrt : ∀ l s, srt l = some s → s.Perm l) (same : StVal → StVal → Bool) (hf : ∀ p, Faithful same p)
    (l : List StVal) (hr : ∀ us, StVal.time us ∈ l → us < 86400000000) (v : StVal) (hv : v ∈ l) (hmax : ∀ j, kindCount l j ≤ kindCount l v.kind) :
    settledKind (columnStatistics clk id srt same [[v], l.erase v]) = some v.kind := by
  have hd := first_kind srt hsrt same hf l v hv hmax
  have H := histogram_counts srt hsrt same [[v], l.erase v] fun p _ => hf p
  obtain ⟨n, h, hh⟩ := histogram_first srt hsrt same v (l.erase v)
  have hne : histogram srt same [[v], l.erase v] ≠ [] := by rw [hh]; simp
  have hp := two_pages hv
  unfold columnStatistics
  generalize histogram srt same [[v], l.erase v] = vc at H hd hne
  by_cases h1 : v.kind = .timedelta
  · rw [h1] at hd ⊢
    rw [C94_timedelta_raises clk id vc H.pos _ hd]
    rfl
  by_cases h2 : v.kind = .other
  · rw [h2] at hd ⊢
    rw [C94_other_raises clk id vc _ hd]
    rfl
  obtain ⟨r, hok⟩ := (C94_exact clk vc hne H.pos fun us m hm => hr us (hp.mem_iff.1 ((H.mem _ _).1 hm).1)).2 ⟨_, _, hd, h1, h2⟩
  rw [hok]
  unfold summaryStatistics at hok
  rw [hd] at hok
  dsimp only at hok
  cases hm : methodOf clk id v.kind (vc.filter fun e => e.1.kind = v.kind) with
  | error e => rw [hm] at hok; cases hok
  | ok d => rw [hm] at hok; cases hok; rfl

theorem firstMax_head (e : List Char × Nat) (t : List (List Char × Nat)) (h : ∀ z ∈ t, z.2 ≤ e.2) : firstMax (e :: t) = some e := by
  have hmem : ∀ (t : List (List Char × Nat)) m, firstMax t = some m → m ∈ t := by
    intro t
    induction t with
    | nil => intro m h; cases h
    | cons a t ih =>
      intro m h
      rw [firstMax] at h
      cases hf : firstMax t with
      | none => rw [hf] at h; cases h; simp
      | some x =>
        rw [hf] at h
        dsimp only at h
        split at h
        · cases h; exact List.mem_cons_of_mem _ (ih _ hf)
        · cases h; simp
  rw [firstMax]
  cases hf : firstMax t with
  | none => rfl
  | some m =>
    dsimp only
    rw [if_neg (by have := h m (hmem t m hf); omega)]

theorem texts_count (l : List StVal) (s : List Char) : (textsOf l).count s = l.count (.str s) := by
  unfold textsOf
  rw [List.count_filterMap, List.count]
  apply List.countP_congr
  intro v _
  cases v <;> simp [asText]

/-- with a most frequent text first, among predominant texts, this text is called the most frequent one -/
theorem first_mode (clk : SClock) (srt : List StVal → Option (List StVal)) (hsrt : ∀ l s, srt l = some s → s.Perm l) (same : StVal → StVal → Bool) (hf : ∀ p, Faithful same p)
    (l : List StVal) (hr : ∀ us, StVal.time us ∈ l → us < 86400000000) (s : List Char) (hv : .str s ∈ l) (hmax : ∀ j, kindCount l j ≤ kindCount l .str)
    (hs : ∀ w, (textsOf l).count w ≤ (textsOf l).count s) :
    modeOf (columnStatistics clk id srt same [[.str s], l.erase (.str s)]) = some (.val (.str s)) := by
  have hd := first_kind srt hsrt same hf l (.str s) hv hmax
  have H := histogram_counts srt hsrt same [[.str s], l.erase (.str s)] fun p _ => hf p
  obtain ⟨n, h, hh⟩ := histogram_first srt hsrt same (.str s) (l.erase (.str s))
  have hne : histogram srt same [[.str s], l.erase (.str s)] ≠ [] := by rw [hh]; simp
  have hp := two_pages hv
  unfold columnStatistics
  generalize histogram srt same [[.str s], l.erase (.str s)] = vc at H hd hne hh
  obtain ⟨r, hok⟩ := (C94_exact clk vc hne H.pos fun us m hm => hr us (hp.mem_iff.1 ((H.mem _ _).1 hm).1)).2 ⟨_, _, hd, nofun, nofun⟩
  rw [hok]
  unfold summaryStatistics at hok
  rw [hd] at hok
  dsimp only at hok
  have hk : (StVal.str s).kind = .str := rfl
  rw [hk] at hok
  have hcnt : ∀ v m, (v, m) ∈ vc → m = l.count v := fun v m hm => by
    rw [((H.mem v m).1 hm).2]
    exact hp.count_eq v
  have hfm : firstMax (pickVals (fun | .str s => some s | _ => none) (vc.filter fun e => e.1.kind = .str)) = some (s, n) := by
    subst hh
    rw [List.filter_cons_of_pos (by rfl)]
    unfold pickVals
    rw [List.filterMap_cons]
    refine firstMax_head _ _ fun z hz => ?_
    obtain ⟨⟨x, m⟩, hx, hxz⟩ := List.mem_filterMap.1 hz
    have hx' := (List.mem_filter.1 hx).1
    cases x <;> simp at hxz
    rename_i w
    subst hxz
    have e1 := hcnt _ _ (List.mem_cons_of_mem _ hx')
    have e2 := hcnt (.str s) n (by simp)
    have := hs w
    rw [texts_count, texts_count] at this
    dsimp only
    omega
  cases hm : methodOf clk id .str (vc.filter fun e => e.1.kind = .str) with
  | error e => rw [hm] at hok; cases hok
  | ok d =>
    rw [hm] at hok
    cases hok
    show some d.mode = _
    have hm : strSummary (pickVals (fun | .str s => some s | _ => none) (vc.filter fun e => e.1.kind = .str)) = .ok d := hm
    unfold strSummary at hm
    rw [hfm] at hm
    obtain ⟨ten, h1, h2⟩ := ebind_ok hm
    cases h2
    rfl

/-- **C126**, exactly: the statistics of the values `l` (times being times of a day, taken without rounding) are the same in every order and for every layout of pages if and only
if one type outnumbers every other type and, where that is `str`, one text is more frequent than every other text. -/
theorem C126_exact (clk : SClock) (srt : List StVal → Option (List StVal)) (hsrt : ∀ l s, srt l = some s → s.Perm l) (same : StVal → StVal → Bool) (hf : ∀ p, Faithful same p)
    (l : List StVal) (hne : l ≠ []) (hr : ∀ us, StVal.time us ∈ l → us < 86400000000) :
    (∀ pages pages' : Pages StVal, (colIter pages).Perm l → (colIter pages').Perm l →
      SameStats (columnStatistics clk id srt same pages) (columnStatistics clk id srt same pages')) ↔
    (∀ k k', (∀ j, kindCount l j ≤ kindCount l k) → (∀ j, kindCount l j ≤ kindCount l k') → k = k') ∧
    ((∀ j, kindCount l j ≤ kindCount l .str) → ∀ s u, s ∈ textsOf l → u ∈ textsOf l →
      (∀ w, (textsOf l).count w ≤ (textsOf l).count s) → (∀ w, (textsOf l).count w ≤ (textsOf l).count u) → s = u) := by
  have hin : ∀ k, (∀ j, kindCount l j ≤ kindCount l k) → ∃ v ∈ l, v.kind = k := by
    intro k hk
    obtain ⟨x, hx⟩ := List.exists_mem_of_ne_nil l hne
    have h1 : 0 < kindCount l x.kind := List.countP_pos_iff.2 ⟨x, hx, by simp⟩
    obtain ⟨v, hv, e⟩ := List.countP_pos_iff.1 (Nat.lt_of_lt_of_le h1 (hk x.kind))
    exact ⟨v, hv, by simpa using e⟩
  constructor
  · intro h
    refine ⟨fun k k' hk hk' => ?_, fun hstr s u hs hu hsm hum => ?_⟩
    · obtain ⟨v, hv, rfl⟩ := hin k hk
      obtain ⟨v', hv', rfl⟩ := hin k' hk'
      have := (h _ _ (two_pages hv) (two_pages hv')).kind
      rw [first_settled clk srt hsrt same hf l hr v hv hk, first_settled clk srt hsrt same hf l hr v' hv' hk'] at this
      exact Option.some.inj this
    · have mem : ∀ w, w ∈ textsOf l → .str w ∈ l := fun w hw => by
        have := List.count_pos_iff.2 hw
        rw [texts_count] at this
        exact List.count_pos_iff.1 this
      have := (h _ _ (two_pages (mem s hs)) (two_pages (mem u hu))).mode
      rw [first_mode clk srt hsrt same hf l hr s (mem s hs) hstr hsm, first_mode clk srt hsrt same hf l hr u (mem u hu) hstr hum] at this
      simpa using this
  · rintro ⟨h1, h2⟩ pages pages' hp hp'
    have hk : ∀ k, kindCount (colIter pages) k = kindCount l k := fun k => hp.countP_eq _
    have ht : (textsOf (colIter pages)).Perm (textsOf l) := hp.filterMap _
    refine C126_partial clk id srt hsrt same pages pages' (fun p _ => hf p) (fun p _ => hf p) (hp.trans hp'.symm) ?_ ?_
    · intro k k' a b
      simp only [hk] at a b
      exact h1 k k' a b
    · intro a s u hs hu b c
      simp only [hk, ht.count_eq] at a b c
      exact h2 a s u (ht.mem_iff.1 hs) (ht.mem_iff.1 hu) b c

example : kindCount [StVal.int 1, .int 2, .str ['b']] .int = 2 ∧ kindCount [StVal.int 1, .int 2, .str ['b']] .str = 1 ∧ textsOf [StVal.int 1, .int 2, .str ['b']] = [['b']] := by
  decide

end Tablite
