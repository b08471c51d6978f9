import Verif.Model.ColumnStats
import Verif.Props.ColumnQuery
import Verif.Props.StatsAny
import Verif.Props.Refcount
/-!
# C126: the statistics of a column
-/

namespace Tablite

/-! ## spec -/

/-- statistics of a list of numbers, by their definitions -/
structure StatsOf (W : List Rat) (t : TenNums) : Prop where
  min : t.min ∈ W ∧ ∀ x ∈ W, t.min ≤ x
  max : t.max ∈ W ∧ ∀ x ∈ W, x ≤ t.max
  mean : t.mean = W.sum / W.length
  median : IsMedian W t.median
  var : (2 ≤ W.length → t.var = varianceOf W) ∧ (W.length = 1 → t.var = 0)
  mode : t.mode ∈ W ∧ ∀ x, W.count x ≤ W.count t.mode
  low : IsQuartile 1 W t.low
  high : IsQuartile 3 W t.high
  sum : t.sum = W.sum

/-- the integers of a list, as numbers -/
def intsOf (l : List StVal) : List Rat := l.filterMap fun | .int n => some (n : Rat) | _ => none

/-- the floats of a list, as numbers -/
def floatsOf (l : List StVal) : List Rat := l.filterMap fun | .float q => some q | _ => none

/-- a text -/
def asText : StVal → Option (List Char)
  | .str s => some s
  | _ => none

/-- the texts of a list -/
def textsOf (l : List StVal) : List (List Char) := l.filterMap asText

/-- how many values of a list have this type -/
def kindCount (l : List StVal) (k : SKind) : Nat := l.countP fun v => v.kind = k

/-! ## histograms -/

section
variable {α : Type} [DecidableEq α]

/-- `h` counts the values of `l` -/
structure Counts (h : List (α × Nat)) (l : List α) : Prop where
  nodup : (h.map (·.1)).Nodup
  mem : ∀ v n, (v, n) ∈ h ↔ v ∈ l ∧ n = l.count v

theorem histogram_counts (srt : List α → Option (List α)) (hsrt : ∀ l s, srt l = some s → s.Perm l) (same : α → α → Bool) (pages : Pages α)
    (h : ∀ p ∈ pages, Faithful same p) : Counts (histogram srt same pages) (colIter pages) := by
  obtain ⟨h1, h2, -⟩ := C13_histogram_partial srt hsrt same pages h
  refine ⟨h1, fun v n => ?_⟩
  have hc : (colIter pages).countP (fun x => decide (x = v)) = (colIter pages).count v := by
    unfold List.count
    apply List.countP_congr
    intro x _
    simp
  constructor
  · intro hm
    have := dGet_mem_nodup _ h1 v n hm
    rw [h2 v] at this
    split at this
    · rename_i hv
      injection this with this
      exact ⟨hv, by rw [← this, hc]⟩
    · cases this
  · rintro ⟨hv, rfl⟩
    apply dGet_some_mem
    rw [h2 v, if_pos hv, hc]

theorem Counts.perm {h h' : List (α × Nat)} {l l' : List α} (H : Counts h l) (H' : Counts h' l') (hp : l.Perm l') : h.Perm h' := by
  rw [List.perm_ext_iff_of_nodup (List.Nodup.of_map _ H.nodup) (List.Nodup.of_map _ H'.nodup)]
  rintro ⟨v, n⟩
  rw [H.mem, H'.mem, hp.mem_iff, hp.count_eq]

theorem Counts.pos {h : List (α × Nat)} {l : List α} (H : Counts h l) : ∀ e ∈ h, 0 < e.2 := by
  rintro ⟨v, n⟩ he
  obtain ⟨hv, rfl⟩ := (H.mem v n).1 he
  exact List.count_pos_iff.2 hv

theorem count_replicates (h : List (α × Nat)) (hn : (h.map (·.1)).Nodup) (v : α) (n : Nat) (hm : (v, n) ∈ h) : (h.flatMap fun e => List.replicate e.2 e.1).count v = n := by
  induction h with
  | nil => simp at hm
  | cons e t ih =>
    rw [List.map_cons, List.nodup_cons] at hn
    rw [List.flatMap_cons, List.count_append, List.count_replicate]
    have hz : ∀ w : α, w ∉ t.map (·.1) → (t.flatMap fun e => List.replicate e.2 e.1).count w = 0 := by
      intro w hw
      rw [List.count_eq_zero]
      intro hx
      obtain ⟨x, hx, hx'⟩ := List.mem_flatMap.1 hx
      exact hw (List.mem_map.2 ⟨x, hx, (List.eq_of_mem_replicate hx').symm⟩)
    rcases List.mem_cons.1 hm with hm | hm
    · subst hm
      rw [hz v hn.1]
      simp
    · have hne : e.1 ≠ v := fun hx => hn.1 (List.mem_map.2 ⟨(v, n), hm, hx.symm⟩)
      rw [ih hn.2 hm, if_neg (by simpa using hne), Nat.zero_add]

/-- written out again, the histogram has the values of the column -/
theorem Counts.expanded {h : List (α × Nat)} {l : List α} (H : Counts h l) : (h.flatMap fun e => List.replicate e.2 e.1).Perm l := by
  rw [List.perm_iff_count]
  intro v
  by_cases hv : v ∈ l
  · exact count_replicates h H.nodup v _ ((H.mem v _).2 ⟨hv, rfl⟩)
  · rw [List.count_eq_zero.2 hv, List.count_eq_zero]
    intro hx
    obtain ⟨e, he, hx⟩ := List.mem_flatMap.1 hx
    have := List.eq_of_mem_replicate hx
    subst this
    exact hv ((H.mem e.1 e.2).1 he).1

end

theorem expand_pick (f : StVal → Option Rat) (h : List (StVal × Nat)) : expand (pickVals f h) = (h.flatMap fun e => List.replicate e.2 e.1).filterMap f := by
  unfold expand pickVals
  induction h with
  | nil => rfl
  | cons e t ih =>
    rw [List.flatMap_cons, List.filterMap_append, ← ih, List.filterMap_cons]
    cases hf : f e.1 with
    | none =>
      simp only [Option.map_none]
      rw [show (List.replicate e.2 e.1).filterMap f = [] by simp [hf], List.nil_append]
    | some q =>
      simp only [Option.map_some, List.flatMap_cons]
      rw [show (List.replicate e.2 e.1).filterMap f = List.replicate e.2 q by simp [hf]]

theorem pickVals_kind {β : Type} (f : StVal → Option β) (k : SKind) (hf : ∀ v b, f v = some b → v.kind = k) (h : List (StVal × Nat)) :
    pickVals f (h.filter fun e => e.1.kind = k) = pickVals f h := by
  unfold pickVals
  rw [List.filterMap_filter]
  apply List.filterMap_congr
  intro e _
  by_cases he : e.1.kind = k
  · simp [he]
  · have : f e.1 = none := by
      cases hx : f e.1 with
      | none => rfl
      | some b => exact absurd (hf _ _ hx) he
    simp [he, this]

/-- the ten numbers of a histogram are those of the values -/
theorem StatsOf.of_ten {vc : List (Rat × Nat)} {t : TenNums} (h : TenOk vc t) (hn : (vc.map (·.1)).Nodup) {W : List Rat} (hW : (expand vc).Perm W) : StatsOf W t := by
  have hlen := hW.length_eq
  refine ⟨⟨hW.mem_iff.1 h.min.1, fun x hx => h.min.2 x (hW.mem_iff.2 hx)⟩, ⟨hW.mem_iff.1 h.max.1, fun x hx => h.max.2 x (hW.mem_iff.2 hx)⟩, ?_, ?_, ?_, ?_, ?_, ?_, ?_⟩
  · rw [h.mean, meanOf, hW.sum_eq, hlen]
  · obtain ⟨s, h1, h2, h3⟩ := h.median
    rw [hlen] at h3
    exact ⟨s, h1.trans hW, h2, h3⟩
  · have hv : varianceOf (expand vc) = varianceOf W := by
      unfold varianceOf
      rw [show meanOf (expand vc) = meanOf W by rw [meanOf, meanOf, hW.sum_eq, hlen], (hW.map _).sum_eq, hlen]
    rw [← hv, ← hlen]
    exact h.var
  · obtain ⟨e, he, hm, hmax⟩ := h.mode
    have hc : ∀ v n, (v, n) ∈ vc → W.count v = n := fun v n hv => by
      rw [← hW.count_eq]
      exact count_replicates vc hn v n hv
    have hmem : t.mode ∈ W := by
      by_cases hz : e.2 = 0
      · exfalso
        obtain ⟨x, hx, hx'⟩ := List.mem_flatMap.1 h.min.1
        have := hmax x hx
        rw [List.mem_replicate] at hx'
        omega
      · rw [hm]
        exact hW.mem_iff.1 (List.mem_flatMap.2 ⟨e, he, List.mem_replicate.2 ⟨hz, rfl⟩⟩)
    refine ⟨hmem, fun x => ?_⟩
    rw [hm, hc e.1 e.2 he]
    by_cases hx : x ∈ W
    · obtain ⟨y, hy, hy'⟩ := List.mem_flatMap.1 (hW.mem_iff.2 hx)
      have := List.eq_of_mem_replicate hy'
      subst this
      rw [hc y.1 y.2 hy]
      exact hmax y hy
    · rw [List.count_eq_zero.2 hx]
      exact Nat.zero_le _
  · have := h.low
    unfold IsQuartile at this ⊢
    rw [← hlen, ← hW.countP_eq, ← hW.countP_eq]
    exact this
  · have := h.high
    unfold IsQuartile at this ⊢
    rw [← hlen, ← hW.countP_eq, ← hW.countP_eq]
    exact this
  · rw [h.sum, hW.sum_eq]

theorem typeTotal_counts {h : List (StVal × Nat)} {l : List StVal} (H : Counts h l) (k : SKind) : typeTotal StVal.kind h k = kindCount l k := by
  have he := H.expanded
  unfold kindCount typeTotal
  rw [← he.countP_eq]
  clear he H
  induction h with
  | nil => rfl
  | cons e t ih =>
    rw [List.flatMap_cons, List.countP_append, ← ih, List.countP_replicate, List.filter_cons]
    by_cases hk : e.1.kind = k
    · simp [hk]
    · simp [hk]

/-! ## the whole -/

theorem summaryStatistics_nil (clk : SClock) (fl : Rat → Rat) : summaryStatistics clk fl [] = .ok none := by
  simp [summaryStatistics, dominant]

section
variable (clk : SClock) (fl : Rat → Rat) (srt : List StVal → Option (List StVal)) (hsrt : ∀ l s, srt l = some s → s.Perm l) (same : StVal → StVal → Bool) (pages : Pages StVal)
  (hf : ∀ p ∈ pages, Faithful same p)
include hsrt hf

/-- **C126**: what is told about all values: the number of distinct values, how often each occurs, and a type no other type outnumbers.  No statistics are given
if and only if the column is empty. -/
theorem C126_whole (r : Option SumOut) (h : columnStatistics clk fl srt same pages = .ok r) :
    (r = none ↔ colIter pages = []) ∧
    ∀ o, r = some o → (o.histogram.map (·.1)).Nodup ∧ (∀ v n, (v, n) ∈ o.histogram ↔ v ∈ colIter pages ∧ n = (colIter pages).count v) ∧
      o.distinct = (colIter pages).dedup.length ∧ ∀ k, kindCount (colIter pages) k ≤ kindCount (colIter pages) o.summaryType := by
  have H := histogram_counts srt hsrt same pages hf
  unfold columnStatistics at h
  generalize histogram srt same pages = vc at h H
  by_cases hne : vc = []
  · have hl : colIter pages = [] := by
      have := H.expanded
      rw [hne] at this
      exact this.nil_eq.symm
    rw [hne, summaryStatistics_nil] at h
    injection h with h
    rw [← h]
    exact ⟨by simp [hl], fun o ho => absurd ho (by simp)⟩
  · obtain ⟨e, he⟩ := List.exists_mem_of_ne_nil vc hne
    obtain ⟨o, rfl, h1, h2, h3, -⟩ := C94_whole clk fl vc ⟨e, he, H.pos e he⟩ r h
    have hv := ((H.mem e.1 e.2).1 he).1
    refine ⟨by simp [List.ne_nil_of_mem hv], ?_⟩
    intro o' ho
    cases ho
    rw [h2]
    refine ⟨H.nodup, H.mem, ?_, fun k => ?_⟩
    · rw [h1, ← List.length_map (f := (·.1)) (as := vc)]
      apply List.Perm.length_eq
      rw [List.perm_ext_iff_of_nodup H.nodup (List.nodup_dedup _)]
      intro v
      rw [List.mem_dedup]
      constructor
      · intro hx
        obtain ⟨x, hx', rfl⟩ := List.mem_map.1 hx
        exact ((H.mem x.1 x.2).1 hx').1
      · intro hx
        exact List.mem_map.2 ⟨(v, _), (H.mem v _).2 ⟨hx, rfl⟩, rfl⟩
    · rw [← typeTotal_counts H, ← typeTotal_counts H]
      exact h3 k

theorem numbers_of (k : SKind) (f : StVal → Option Rat) (hfk : ∀ v b, f v = some b → v.kind = k) (hfv : ∀ v : StVal, v.kind = k → ∃ b, f v = some b)
    (hinj : ∀ v w b, f v = some b → f w = some b → v = w)
    (hm : ∀ vc, methodOf clk fl k vc = numSummary (pickVals f vc)) (o : SumOut) (h : columnStatistics clk fl srt same pages = .ok (some o)) (ho : o.summaryType = k) :
    ∃ t, StatsOf ((colIter pages).filterMap f) t ∧ o.entries = ⟨.num (.rat t.min), .num (.rat t.max), .num (.rat t.mean), .num (.rat t.median), .num (.sqrt t.var),
      .num (.rat t.mode), .num (.rat t.low), .num (.rat t.high), .num (.rat (t.high - t.low)), .num (.rat t.sum)⟩ := by
  have H := histogram_counts srt hsrt same pages hf
  have h0 := h
  unfold columnStatistics at h
  generalize histogram srt same pages = vc at h H
  have hne : vc ≠ [] := by
    intro e
    rw [e, summaryStatistics_nil] at h
    injection h with h
    cases h
  obtain ⟨e, he⟩ := List.exists_mem_of_ne_nil vc hne
  obtain ⟨T, hT, hex, -, -⟩ := C66_dominant StVal.kind vc ⟨e, he, H.pos e he⟩
  obtain ⟨o', ho', -, -, -, h4⟩ := C94_whole clk fl vc ⟨e, he, H.pos e he⟩ _ h
  injection ho' with ho'
  subst ho'
  have hTk : T = k := by
    unfold summaryStatistics at h
    rw [hT] at h
    obtain ⟨d, hd, h⟩ := ebind_ok h
    cases h
    exact ho
  rw [hTk] at hex
  rw [ho, hm] at h4
  obtain ⟨p1, p2⟩ := pick_ok f k hfv vc H.pos hex
  rw [pickVals_kind f k hfk] at h4 p1 p2
  obtain ⟨t, ht, h5⟩ := C94_number_entries _ p1 p2
  rw [h5] at h4
  refine ⟨t, StatsOf.of_ten ht ?_ ?_, (Except.ok.inj h4).symm⟩
  · have hnd := H.nodup
    clear h h4 h5 ht p1 p2 hex hT hne he H
    unfold pickVals
    induction vc with
    | nil => exact List.nodup_nil
    | cons x u ih =>
      rw [List.map_cons, List.nodup_cons] at hnd
      rw [List.filterMap_cons]
      cases hx : f x.1 with
      | none => exact ih hnd.2
      | some b =>
        simp only [Option.map_some, List.map_cons, List.nodup_cons]
        refine ⟨fun hb => ?_, ih hnd.2⟩
        obtain ⟨y, hy, hyb⟩ := List.mem_map.1 hb
        obtain ⟨z, hz, hzy⟩ := List.mem_filterMap.1 hy
        obtain ⟨c, hc, rfl⟩ := Option.map_eq_some_iff.1 hzy
        dsimp only at hyb
        subst hyb
        exact hnd.1 (List.mem_map.2 ⟨z, hz, hinj _ _ _ hc hx⟩)
  · rw [expand_pick]
    exact H.expanded.filterMap f

/-- **C126** integers: where they are the predominant type, the ten entries are the statistics of the integers of the column. -/
theorem C126_integers (o : SumOut) (h : columnStatistics clk fl srt same pages = .ok (some o)) (ho : o.summaryType = .int) :
    ∃ t, StatsOf (intsOf (colIter pages)) t ∧ o.entries = ⟨.num (.rat t.min), .num (.rat t.max), .num (.rat t.mean), .num (.rat t.median), .num (.sqrt t.var),
      .num (.rat t.mode), .num (.rat t.low), .num (.rat t.high), .num (.rat (t.high - t.low)), .num (.rat t.sum)⟩ :=
  numbers_of clk fl srt hsrt same pages hf .int _ (by intro v b hv; cases v <;> first | rfl | cases hv) (by intro v hv; cases v <;> first | exact ⟨_, rfl⟩ | cases hv)
    (by
      intro v w b hv hw
      cases v <;> cases hv
      cases w <;> cases hw
      rfl) (fun _ => rfl) o h ho

/-- **C126** floats, likewise. -/
theorem C126_floats (o : SumOut) (h : columnStatistics clk fl srt same pages = .ok (some o)) (ho : o.summaryType = .float) :
    ∃ t, StatsOf (floatsOf (colIter pages)) t ∧ o.entries = ⟨.num (.rat t.min), .num (.rat t.max), .num (.rat t.mean), .num (.rat t.median), .num (.sqrt t.var),
      .num (.rat t.mode), .num (.rat t.low), .num (.rat t.high), .num (.rat (t.high - t.low)), .num (.rat t.sum)⟩ :=
  numbers_of clk fl srt hsrt same pages hf .float _ (by intro v b hv; cases v <;> first | rfl | cases hv) (by intro v hv; cases v <;> first | exact ⟨_, rfl⟩ | cases hv)
    (by
      intro v w b hv hw
      cases v <;> cases hv
      cases w <;> cases hw
      rfl) (fun _ => rfl) o h ho

end

/-! ## order and layout -/

theorem pickVals_perm {β : Type} (f : StVal → Option β) {h h' : List (StVal × Nat)} (hp : h.Perm h') : (pickVals f h).Perm (pickVals f h') := hp.filterMap _

theorem numSummary_perm {a b : List (Rat × Nat)} (h : a.Perm b) : numSummary a = numSummary b := by
  unfold numSummary
  rw [C36_order a b h]

/-- a single most frequent text is found in any order -/
theorem firstMax_perm {a b : List (List Char × Nat)} (h : a.Perm b) (hu : ∀ x ∈ a, ∀ y ∈ a, (∀ z ∈ a, z.2 ≤ x.2) → (∀ z ∈ a, z.2 ≤ y.2) → x = y) : firstMax a = firstMax b := by
  by_cases ha : a = []
  · subst ha
    rw [h.nil_eq.symm]
  have hb : b ≠ [] := fun e => ha (by rw [e] at h; exact h.eq_nil)
  obtain ⟨p, e, q, e1, e2, e3, e4⟩ := firstMax_spec a ha
  obtain ⟨p', e', q', e1', e2', e3', e4'⟩ := firstMax_spec b hb
  have m1 : e ∈ a := by rw [e1]; simp
  have m2 : e' ∈ a := h.mem_iff.2 (by rw [e1']; simp)
  have g1 : ∀ z ∈ a, z.2 ≤ e.2 := by
    intro z hz
    rw [e1] at hz
    rcases List.mem_append.1 hz with hz | hz
    · exact (e3 z hz).le
    · rcases List.mem_cons.1 hz with rfl | hz
      · exact le_rfl
      · exact e4 z hz
  have g2 : ∀ z ∈ a, z.2 ≤ e'.2 := by
    intro z hz
    have hz := h.mem_iff.1 hz
    rw [e1'] at hz
    rcases List.mem_append.1 hz with hz | hz
    · exact (e3' z hz).le
    · rcases List.mem_cons.1 hz with rfl | hz
      · exact le_rfl
      · exact e4' z hz
  rw [e2, e2', hu e m1 e' m2 g1 g2]

/-- the method of a type does not depend on the order; for texts, if one text is more frequent than all others -/
theorem methodOf_perm (clk : SClock) (fl : Rat → Rat) (k : SKind) {a b : List (StVal × Nat)} (h : a.Perm b)
    (hu : k = .str → ∀ x ∈ pickVals asText a, ∀ y ∈ pickVals asText a,
      (∀ z ∈ pickVals asText a, z.2 ≤ x.2) → (∀ z ∈ pickVals asText a, z.2 ≤ y.2) → x = y) :
    methodOf clk fl k a = methodOf clk fl k b := by
  cases k with
  | none => rfl
  | other => rfl
  | int => exact numSummary_perm (pickVals_perm _ h)
  | float => exact numSummary_perm (pickVals_perm _ h)
  | bool =>
    unfold methodOf boolSummary
    dsimp only
    rw [C36_order _ _ ((pickVals_perm _ h).map _)]
  | date =>
    unfold methodOf dateSummary
    dsimp only
    rw [C36_order _ _ ((pickVals_perm _ h).map _)]
  | datetime =>
    unfold methodOf datetimeSummary
    dsimp only
    rw [C36_order _ _ ((pickVals_perm _ h).map _)]
  | time =>
    unfold methodOf timeSummary
    dsimp only
    rw [C36_order _ _ ((pickVals_perm _ h).map _)]
  | str =>
    have hs : ∀ c, methodOf clk fl .str c = strSummary (pickVals asText c) := fun c => rfl
    rw [hs, hs]
    unfold strSummary
    rw [C36_order _ _ ((pickVals_perm _ h).map _), firstMax_perm (pickVals_perm _ h) (hu rfl)]
  | timedelta =>
    have ht : ∀ c d : List (Int × Nat), c.Perm d → timedeltaSummary c = timedeltaSummary d := by
      intro c d hp
      cases c with
      | nil => rw [hp.nil_eq.symm]
      | cons x u =>
        cases d with
        | nil => exact absurd hp.eq_nil (by simp)
        | cons y w => rfl
    exact ht _ _ (pickVals_perm _ h)

/-- two outcomes agree: both raise the same exception, both are empty, or their entries agree and their histograms up to the order -/
def SameStats : Except Err (Option SumOut) → Except Err (Option SumOut) → Prop
  | .ok (some a), .ok (some b) => a.entries = b.entries ∧ a.distinct = b.distinct ∧ a.summaryType = b.summaryType ∧ a.histogram.Perm b.histogram
  | x, y => x = y

/-- the full claim: the statistics of a column depend on its values only, not on their order nor on the pages -/
def C126_statement : Prop := ∀ (clk : SClock) (fl : Rat → Rat) (srt : List StVal → Option (List StVal)) (same : StVal → StVal → Bool) (pages pages' : Pages StVal),
  (∀ l s, srt l = some s → s.Perm l) → (∀ p, Faithful same p) → (colIter pages).Perm (colIter pages') →
  SameStats (columnStatistics clk fl srt same pages) (columnStatistics clk fl srt same pages')

/-- **C126**, partial: the statistics do not depend on the order of the values nor on the pages, if one type outnumbers every other type and, where that is
`str`, one text is more frequent than every other text.  Missing: ties (`C126_fails`, `C126_type_fails`). -/
theorem C126_partial (clk : SClock) (fl : Rat → Rat) (srt : List StVal → Option (List StVal)) (hsrt : ∀ l s, srt l = some s → s.Perm l) (same : StVal → StVal → Bool)
    (pages pages' : Pages StVal) (hf : ∀ p ∈ pages, Faithful same p) (hf' : ∀ p ∈ pages', Faithful same p) (hp : (colIter pages).Perm (colIter pages'))
    (htype : ∀ k k', (∀ j, kindCount (colIter pages) j ≤ kindCount (colIter pages) k) → (∀ j, kindCount (colIter pages) j ≤ kindCount (colIter pages) k') → k = k')
    (htext : (∀ j, kindCount (colIter pages) j ≤ kindCount (colIter pages) .str) → ∀ s u, s ∈ textsOf (colIter pages) → u ∈ textsOf (colIter pages) →
      (∀ w, (textsOf (colIter pages)).count w ≤ (textsOf (colIter pages)).count s) → (∀ w, (textsOf (colIter pages)).count w ≤ (textsOf (colIter pages)).count u) → s = u) :
    SameStats (columnStatistics clk fl srt same pages) (columnStatistics clk fl srt same pages') := by
  have H := histogram_counts srt hsrt same pages hf
  have H' := histogram_counts srt hsrt same pages' hf'
  have hperm := H.perm H' hp
  unfold columnStatistics
  generalize histogram srt same pages = a at H hperm
  generalize histogram srt same pages' = b at H' hperm
  by_cases ha : a = []
  · subst ha
    rw [hperm.nil_eq.symm, summaryStatistics_nil]
    exact rfl
  have hb : b ≠ [] := fun e => ha (by rw [e] at hperm; exact hperm.eq_nil)
  obtain ⟨e, he⟩ := List.exists_mem_of_ne_nil a ha
  obtain ⟨e', he'⟩ := List.exists_mem_of_ne_nil b hb
  obtain ⟨T, hT, -, hmax, -⟩ := C66_dominant StVal.kind a ⟨e, he, H.pos e he⟩
  obtain ⟨T', hT', -, hmax', -⟩ := C66_dominant StVal.kind b ⟨e', he', H'.pos e' he'⟩
  have hTmax : ∀ j, kindCount (colIter pages) j ≤ kindCount (colIter pages) T := fun j => by
    rw [← typeTotal_counts H, ← typeTotal_counts H]
    exact hmax j
  have hTT : T = T' := by
    refine htype T T' hTmax fun j => ?_
    have hk : ∀ k, kindCount (colIter pages) k = kindCount (colIter pages') k := fun k => hp.countP_eq _
    rw [hk, hk, ← typeTotal_counts H', ← typeTotal_counts H']
    exact hmax' j
  subst hTT
  have hmeth : methodOf clk fl T (a.filter fun e => e.1.kind = T) = methodOf clk fl T (b.filter fun e => e.1.kind = T) := by
    apply methodOf_perm clk fl T (hperm.filter _)
    intro hstr
    subst hstr
    rw [pickVals_kind _ .str (by intro v b hv; cases v <;> first | rfl | cases hv)]
    have hc : ∀ x ∈ pickVals asText a, x.1 ∈ textsOf (colIter pages) ∧ x.2 = (textsOf (colIter pages)).count x.1 := by
      intro x hx
      obtain ⟨z, hz, hzx⟩ := List.mem_filterMap.1 hx
      obtain ⟨c, hc, rfl⟩ := Option.map_eq_some_iff.1 hzx
      obtain ⟨hv, hn⟩ := (H.mem z.1 z.2).1 hz
      refine ⟨List.mem_filterMap.2 ⟨z.1, hv, hc⟩, ?_⟩
      dsimp only
      rw [hn]
      unfold textsOf
      rw [List.count_filterMap, List.count]
      apply List.countP_congr
      intro v _
      rcases z with ⟨zv, zn⟩
      cases zv <;> cases hc
      cases v <;> simp [asText]
    have hall : ∀ w ∈ textsOf (colIter pages), ∃ x ∈ pickVals asText a, x.1 = w := by
      intro w hw
      obtain ⟨v, hv, hvw⟩ := List.mem_filterMap.1 hw
      exact ⟨(w, _), List.mem_filterMap.2 ⟨(v, _), (H.mem v _).2 ⟨hv, rfl⟩, by rw [hvw]; rfl⟩, rfl⟩
    have hle : ∀ x ∈ pickVals asText a, (∀ z ∈ pickVals asText a, z.2 ≤ x.2) →
        ∀ w, (textsOf (colIter pages)).count w ≤ (textsOf (colIter pages)).count x.1 := by
      intro x hx hz w
      by_cases hw : w ∈ textsOf (colIter pages)
      · obtain ⟨z, hz', rfl⟩ := hall w hw
        rw [← (hc z hz').2, ← (hc x hx).2]
        exact hz z hz'
      · rw [List.count_eq_zero.2 hw]
        exact Nat.zero_le _
    intro x hx y hy hxm hym
    have := htext hTmax x.1 y.1 (hc x hx).1 (hc y hy).1 (hle x hx hxm) (hle y hy hym)
    exact Prod.ext this (by rw [(hc x hx).2, (hc y hy).2, this])
  unfold summaryStatistics
  rw [hT, hT']
  dsimp only
  rw [hmeth]
  cases hm : methodOf clk fl T (b.filter fun e => e.1.kind = T) with
  | error err => exact rfl
  | ok d => exact ⟨rfl, hperm.length_eq, rfl, hperm⟩

/-- the mode told -/
def modeOf (r : Except Err (Option SumOut)) : Option SOut := r.toOption.bind fun o => o.map fun o => o.entries.mode

theorem SameStats.mode {x y : Except Err (Option SumOut)} (h : SameStats x y) : modeOf x = modeOf y := by
  cases x with
  | error e => exact congrArg modeOf h
  | ok x =>
    cases y with
    | error e => exact congrArg modeOf (by cases x <;> exact h)
    | ok y =>
      cases x with
      | none => exact congrArg modeOf (by cases y <;> exact h)
      | some a =>
        cases y with
        | none => exact congrArg modeOf h
        | some b => exact congrArg (fun d : Sum10 SOut => some d.mode) h.1

/-- two texts, each once: the first one is called the most frequent -/
theorem C126_fails : ¬ C126_statement := by
  intro h
  have hs := (h utcClock id (fun _ => none) (fun a b => decide (a = b)) [[.str ['a'], .str ['b']]] [[.str ['b'], .str ['a']]] (fun _ _ e => absurd e (by simp))
    (fun p a _ b _ hab => by simpa using hab) (List.Perm.swap _ _ _)).mode
  have e1 : modeOf (columnStatistics utcClock id (fun _ => none) (fun a b => decide (a = b)) [[.str ['a'], .str ['b']]]) = some (.val (.str ['a'])) := by decide +kernel
  have e2 : modeOf (columnStatistics utcClock id (fun _ => none) (fun a b => decide (a = b)) [[.str ['b'], .str ['a']]]) = some (.val (.str ['b'])) := by decide +kernel
  rw [e1, e2] at hs
  exact absurd hs (by decide)

/-- one integer and one text: the first type is the summary type -/
theorem C126_type_fails :
    (columnStatistics utcClock id (fun _ => none) (fun a b => decide (a = b)) [[.int 1, .str ['b']]]).toOption.bind (fun o => o.map fun o => o.summaryType) = some .int ∧
    (columnStatistics utcClock id (fun _ => none) (fun a b => decide (a = b)) [[.str ['b'], .int 1]]).toOption.bind (fun o => o.map fun o => o.summaryType) = some .str := by
  decide +kernel

/-- integers among other values, in two pages -/
example : (columnStatistics utcClock id (fun _ => none) (fun a b => decide (a = b)) [[.int 1, .none, .int 4], [.int 1, .str ['x']]]).toOption.bind
    (fun o => o.map fun o => (o.summaryType, o.distinct, o.entries.min, o.entries.mode, o.entries.mean)) = some (.int, 4, .num (.rat 1), .num (.rat 1), .num (.rat 2)) := by
  decide +kernel

/-- a column that meets the hypotheses of `C126_partial`: more integers than values of any other type -/
example : ∀ k k', (∀ j, kindCount (colIter [[.int 1, .none], [.int 2]]) j ≤ kindCount (colIter [[.int 1, .none], [.int 2]]) k) →
    (∀ j, kindCount (colIter [[.int 1, .none], [.int 2]]) j ≤ kindCount (colIter [[.int 1, .none], [.int 2]]) k') → k = k' := by
  have H : ∀ k, (∀ j, kindCount (colIter [[.int 1, .none], [.int 2]]) j ≤ kindCount (colIter [[.int 1, .none], [.int 2]]) k) → k = .int := by
    intro k h
    have := h .int
    revert this
    cases k <;> decide
  intro k k' h h'
  rw [H k h, H k' h']

end Tablite
