import Verif.Props.AgreeScript
import Verif.Props.ExportTyped
/-!
# C131: exactly which tables come back from an exported text file, if the texts of their columns agree
-/
namespace Tablite
set_option linter.unusedSectionVars false

/-- the texts of the values of a column -/
def writtenTexts (ft : Rat → List Char) (vals : List CsvVal) (s : List Char) : Prop := ∃ v ∈ vals, s = csvText ft v

/-- **C131** (what comes back): if the texts of every column agree, the table that comes back has for every value the reading of its text on its own, for every page size -/
theorem C131_alone (pf : List Char → Option Rat) (ft : Rat → List Char) (mk : List Char → Nat → List Char) (num : Nat → List Char) (ps : Nat) (t : Tbl (List Char) CsvVal)
    (hps : 0 < ps) (hne : t ≠ []) (h2 : 2 ≤ t.length ∨ ∀ c ∈ t, c.1 ≠ [] ∧ ∀ v ∈ colIter c.2, csvText ft v ≠ []) (hn : (t.map (·.1)).Nodup) (hnames : ∀ c ∈ t, Kept csvDefault c.1) (hlen : ∀ c ∈ t, (colIter c.2).length = tblLen t)
    (hkept : ∀ c ∈ t, ∀ v ∈ colIter c.2, Kept csvDefault (csvText ft v))
    (hA : ∀ c ∈ t, (∀ s, writtenTexts ft (colIter c.2) s → ∃ ty, TakenAs pf ty s) ∧ TextsAgree pf (writtenTexts ft (colIter c.2))) :
    (csvRoundTrip pf ft mk num ps t).map flatTable = .ok (t.map fun c => (c.1, (colIter c.2).map fun v => aloneVal pf (csvText ft v))) := by
  let rows := (List.range (tblLen t)).map fun i => t.map fun c => (colIter c.2).getD i CsvVal.none
  let all : List (List (List Char)) := t.map (·.1) :: rows.map fun r => r.map (csvText ft)
  obtain ⟨text, htext, hparse, hstrip⟩ := records_written (csvText ft) CsvVal.none csvDefault csvDefault_ok rfl rfl (by decide) t hne hn hnames hkept (kept_clean [] (by decide) (by simp)) (fun _ => h2)
  have hfn : fileNames mk num {} all = t.map (·.1) := by
    show fieldNames mk num true ((t.map (·.1)).map stripEscape) = _
    rw [hstrip, fieldNames, if_pos rfl, uniqueNames_nodup mk _ hn]
  have hwn : wantedNames mk num {} all = t.map (·.1) := hfn
  have hreq : requestedRows {} all = rows.map fun r => r.map (csvText ft) := by
    simp [requestedRows, all, checkSkip]
  have hmem : ∀ c ∈ t, ∀ i, i < tblLen t → (colIter c.2).getD i .none ∈ colIter c.2 := by
    intro c hc i hi
    rw [List.getD_eq_getElem?_getD, List.getElem?_eq_getElem (by rw [hlen c hc]; exact hi), Option.getD_some]
    exact List.getElem_mem _
  have hcell : ∀ (k : Nat) (c : List Char × Pages CsvVal), t[k]? = some c → ∀ i, ((t.map fun c => (colIter c.2).getD i CsvVal.none).map (csvText ft)).getD k [] =
      csvText ft ((colIter c.2).getD i .none) := by
    intro k c hk i
    simp [List.getD_eq_getElem?_getD, hk]
  have himp := C130_agree_partial pf mk num csvDefault {} (readLines [] text) all ⟨hparse, by simp [all], fun c hc => hc, by rw [hwn]; simpa using hne⟩ (by
    intro i _
    by_cases hi : i < t.length
    · have hk : t[i]? = some t[i] := List.getElem?_eq_getElem hi
      obtain ⟨g1, g2⟩ := hA _ (List.getElem_mem hi)
      have hsub : ∀ s, fieldTexts {} all i s → writtenTexts ft (colIter (t[i]).2) s := by
        rintro s ⟨r, hr, rfl⟩
        rw [hreq] at hr
        obtain ⟨r', hr', rfl⟩ := List.mem_map.1 hr
        obtain ⟨j, hj, rfl⟩ := List.mem_map.1 hr'
        exact ⟨_, hmem _ (List.getElem_mem hi) j (List.mem_range.1 hj), hcell i _ hk j⟩
      exact ⟨fun s hs => g1 s (hsub s hs), fun s s' u u' hs hs' => g2 s s' u u' (hsub s hs) (hsub s' hs')⟩
    · refine agree_of_list pf [([], .none)] ?_ ?_ _ ?_
      · intro p hp
        cases List.mem_singleton.1 hp
        exact ⟨by nofun, fun u _ hu => by revert hu; cases u <;> exact fun h => absurd h (by decide)⟩
      · intro p hp q hq
        cases List.mem_singleton.1 hp
        cases List.mem_singleton.1 hq
        exact ⟨.inr rfl, by decide⟩
      · rintro s ⟨r, hr, rfl⟩
        rw [hreq] at hr
        obtain ⟨r', hr', rfl⟩ := List.mem_map.1 hr
        obtain ⟨j, hj, rfl⟩ := List.mem_map.1 hr'
        rw [List.getD_eq_getElem?_getD, List.getElem?_eq_none (by simpa using Nat.not_lt.1 hi)]
        exact List.mem_singleton.2 rfl) ps hps (kept_of_none _ rfl ps hps _)
  unfold csvRoundTrip
  rw [show (',' : Char) = csvDefault.delimiter from rfl, htext]
  show (importTyped pf mk num csvDefault {} ps (readLines [] text)).map flatTable = _
  rw [himp, hwn, hfn, uniqueNames_nodup mk _ hn, hreq]
  congr 1
  apply List.ext_getElem?
  intro k
  by_cases hk : k < t.length
  · have hkt : t[k]? = some t[k] := List.getElem?_eq_getElem hk
    rw [List.getElem?_eq_getElem (by simpa using hk), List.getElem_zip, List.getElem_map, List.getElem_map, List.getElem_map, List.getElem?_map, hkt, Option.map_some]
    congr 2
    have hidx : (t.map (·.1)).idxOf (t[k]).1 = k := by
      have := hn.idxOf_getElem k (by simpa using hk)
      rwa [List.getElem_map] at this
    rw [hidx]
    simp only [rows, List.map_map]
    apply List.ext_getElem
    · simp [hlen _ (List.getElem_mem hk)]
    · intro i h1 h2
      rw [List.getElem_map, List.getElem_map, List.getElem_range, Function.comp_apply, Function.comp_apply]
      rw [hcell k _ hkt, List.getD_eq_getElem?_getD, List.getElem?_eq_getElem (by simpa using h2)]
      rfl
  · rw [List.getElem?_eq_none (by simpa using Nat.not_lt.1 hk), List.getElem?_eq_none (by simpa using Nat.not_lt.1 hk)]

/-- **C131**, exactly: if the texts of every column agree, the table comes back with its values and their types if and only if the text of every value is read, on its own, as this value -/
theorem C131_exact (pf : List Char → Option Rat) (ft : Rat → List Char) (mk : List Char → Nat → List Char) (num : Nat → List Char) (ps : Nat) (t : Tbl (List Char) CsvVal)
    (hps : 0 < ps) (hne : t ≠ []) (h2 : 2 ≤ t.length ∨ ∀ c ∈ t, c.1 ≠ [] ∧ ∀ v ∈ colIter c.2, csvText ft v ≠ []) (hn : (t.map (·.1)).Nodup) (hnames : ∀ c ∈ t, Kept csvDefault c.1) (hlen : ∀ c ∈ t, (colIter c.2).length = tblLen t)
    (hkept : ∀ c ∈ t, ∀ v ∈ colIter c.2, Kept csvDefault (csvText ft v))
    (hA : ∀ c ∈ t, (∀ s, writtenTexts ft (colIter c.2) s → ∃ ty, TakenAs pf ty s) ∧ TextsAgree pf (writtenTexts ft (colIter c.2))) :
    (csvRoundTrip pf ft mk num ps t).map flatTable = .ok (t.map fun c => (c.1, (colIter c.2).map CsvVal.imported)) ↔
      ∀ c ∈ t, ∀ v ∈ colIter c.2, aloneVal pf (csvText ft v) = v.imported := by
  rw [C131_alone pf ft mk num ps t hps hne h2 hn hnames hlen hkept hA, Except.ok.injEq]
  constructor
  · intro h c hc v hv
    have h1 := List.map_inj_left.1 h c hc
    exact List.map_inj_left.1 (Prod.ext_iff.1 h1).2 v hv
  · intro h
    exact List.map_congr_left fun c hc => by rw [List.map_congr_left (h c hc)]

/-- a column of integers, booleans, dates, times and `None` comes back -/
example : (csvRoundTrip parseEighths eighths mkNum numText 2 (withFlags [.int 5, .none, .date 2024 1 31, .bool true, .time 12 30 0 0])).map flatTable =
    .ok ((withFlags [.int 5, .none, .date 2024 1 31, .bool true, .time 12 30 0 0]).map fun c => (c.1, (colIter c.2).map CsvVal.imported)) := by
  refine (C131_exact parseEighths eighths mkNum numText 2 _ (by decide) (by decide) (.inl (by decide)) (by decide) ?_ (by decide +kernel) ?_ ?_).2 (by decide +kernel)
  · intro c hc
    rcases List.mem_cons.1 hc with rfl | hc
    · exact kept_clean _ (by decide) (by decide)
    · rw [List.mem_singleton.1 hc]; exact kept_clean _ (by decide) (by decide)
  · have key : ∀ c ∈ withFlags [.int 5, .none, .date 2024 1 31, .bool true, .time 12 30 0 0], ∀ v ∈ colIter c.2, (csvText eighths v).length ≤ 131072 ∧ ∀ x ∈ csvText eighths v, x ∈ "5-2024-01-31True12:30:00".toList := by
      decide +kernel
    intro c hc v hv
    obtain ⟨a, b⟩ := key c hc v hv
    refine kept_clean _ a fun x hx => ?_
    have := b x hx
    clear hx
    revert x
    decide
  · intro c hc
    rcases List.mem_cons.1 hc with rfl | hc
    · refine agree_of_list parseEighths [("5".toList, .intSimple), ([], .none), ("2024-01-31".toList, .date), ("True".toList, .bool), ("12:30:00".toList, .time)] (by decide +kernel) (by decide +kernel) _ ?_
      rintro s ⟨v, hv, rfl⟩
      revert v
      decide +kernel
    · rw [List.mem_singleton.1 hc]
      refine agree_of_list parseEighths [("True".toList, .bool)] (by decide +kernel) (by decide +kernel) _ ?_
      rintro s ⟨v, hv, rfl⟩
      revert v
      decide +kernel

end Tablite
